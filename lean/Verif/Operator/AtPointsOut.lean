import Verif.Operator.AtPointsElem

/-!
# Outputs of one element of an operator at points (helper lemmas)
-/

set_option linter.unusedSectionVars false

namespace Verif
namespace Operator

open Finset Polynomial
open Restriction (RData Made Rstr Rep laneEnd PointsOK ptsIn ptAt ptsBefore)
open Basis (Bas EMode PBas Env Fresh Shape Exact Used pev along coord pointPos)

variable {K : Type} [Field K] [LinearOrder K]

/-- Entry `x` of the E-vector of one element of output `o`, computed from the arrays `y`. -/
noncomputable def elOut (P : POper K) (S : PMean K) (np : Nat) (xe : Buf K) (y : Nat → Nat → K) (o x : Nat) : K :=
  if (P.op.out o).mode = .none then y o x
  else match (P.op.out o).basis with
    | some b => ∑ p ∈ range np, ∑ k ∈ range (b.qComp (P.op.out o).mode),
        y o (pointPos b.nc np k (x / b.P) p) * Basis.shapeAt b (S.phi (P.outB o)) (P.op.out o).mode np xe k p (x % b.P)
    | none => 0

/-- Data of element `e` after the outputs in `T p` have been written into E-vector `p`. -/
structure OutA (P : POper K) (S : PMean K) (b0 : Nat → PBas K) (e : Nat) (xe0 : Buf K) (y : Nat → Nat → K) (d : Dyn K)
    (T : Nat → Finset Nat) : Prop where
  dinv : DInv P S b0 d
  xe : d.xe = xe0
  val : ∀ p < P.op.nout, (T p).Nonempty → ∀ x < cntR P.op S e (P.op.out p).r, (d.w p).val x = ∑ o ∈ T p, elOut P S (S.np e) xe0 y o x

theorem OutA.write {P : POper K} {S : PMean K} {b0 : Nat → PBas K} {e : Nat} {xe : Buf K} {y : Nat → Nat → K} {d : Dyn K}
    {T T' : Nat → Finset Nat} (h : OutA P S b0 e xe y d T) {o : Nat} (ho : o < P.op.nout) {v : Buf K} {bas : Nat → PBas K}
    (hb : ∀ id, Used (b0 id) (bas id))
    (hv : v.len = (d.w (last P.op o)).len) (hT : ∀ p, p ≠ last P.op o → T' p = T p)
    (hval : ∀ x < cntR P.op S e (P.op.out o).r, v.val x = ∑ o' ∈ T' (last P.op o), elOut P S (S.np e) xe y o' x) :
    OutA P S b0 e xe y { d with w := Function.update d.w (last P.op o) v, bas := bas } T' := by
  have hs := last_same P.op ho
  refine ⟨{ h.dinv with w := ?_, bas := hb }, h.xe, ?_⟩
  · intro p hp
    show (Function.update d.w (last P.op o) v p).len = _
    by_cases hpe : p = last P.op o
    · subst hpe
      rw [Function.update_self, hv]; exact h.dinv.w _ hp
    · rw [Function.update_of_ne hpe]; exact h.dinv.w p hp
  · intro p hp hne x hx
    show (Function.update d.w (last P.op o) v p).val x = _
    by_cases hpe : p = last P.op o
    · subst hpe
      rw [Function.update_self]
      rw [r_same hs] at hx
      exact hval x hx
    · rw [Function.update_of_ne hpe, hT p hpe]
      rw [hT p hpe] at hne
      exact h.val p hp hne x hx

/-- An output without basis does not share. -/
theorem AtOK.none_alone {P : POper K} {S : PMean K} {b0 : Nat → PBas K} (h : AtOK P S b0) {o o' : Nat} (ho : o < P.op.nout)
    (ho' : o' < P.op.nout) (hs : (P.op.out o).same (P.op.out o') = true) (hm : (P.op.out o).mode = .none) : o' = o := by
  obtain ⟨k1, _⟩ := (h.out o ho).none hm
  have hm' : (P.op.out o').mode = .none := by
    rcases mode_cases (P.op.out o').mode with h1 | h1 | h1
    · exact absurd h1 (h.out o' ho').notWeight
    · exact h1
    · obtain ⟨_, h2, _⟩ := (h.out o' ho').basis h1
      rw [← r_same hs] at h2
      exact absurd k1 h2.facts.1
  rcases Nat.lt_trichotomy o o' with hlt | rfl | hlt
  · exact absurd hm' (h.shareOut o o' hlt ho' hs)
  · rfl
  · exact absurd hm (h.shareOut o' o hlt ho (same_symm hs))

theorem directEl_ok {P : POper K} {S : PMean K} {b0 : Nat → PBas K} (h : AtOK P S b0) (hI : P.op.isId = false) {s : PSt K}
    {e : Nat} (he : e < P.op.ne) (vs : Nat → LVec K) (off : Nat) {xe : Buf K} {y : Nat → Nat → K} {d : Dyn K} {o : Nat} (ho : o < P.op.nout)
    (hd : OutA P S b0 e xe y d (fun p => (range o).filter (fun o' => last P.op o' = p ∧ (P.op.out o').mode = .none))) :
    ∃ d', directEl P (S.np e) y o (s.put d vs off) = .ok (s.put d' vs off) () ∧
      OutA P S b0 e xe y d' (fun p => (range (o + 1)).filter (fun o' => last P.op o' = p ∧ (P.op.out o').mode = .none)) := by
  unfold directEl
  by_cases hm : (P.op.out o).mode = .none
  · obtain ⟨k1, k2⟩ := (h.out o ho).none hm
    have hlast : last P.op o = o := h.none_alone ho (last_lt P.op ho) (same_symm (last_same P.op ho)) hm
    have hl : S.np e * (P.op.out o).size ≤ (d.w o).len := by
      rw [hd.dinv.w o ho]; unfold lenR; rw [if_pos k1, k2]
      exact Nat.mul_le_mul_right _ (np_le he)
    have hsl : slice (d.w o) 0 (S.np e * (P.op.out o).size) = .ok ⟨S.np e * (P.op.out o).size, fun x => (d.w o).val (0 + x)⟩ := by
      unfold slice; rw [if_pos (by omega)]
    refine ⟨{ d with w := Function.update d.w (last P.op o) (paste (d.w o) 0 ⟨S.np e * (P.op.out o).size, y o⟩), bas := d.bas }, ?_, ?_⟩
    · simp only [M.bind_apply, getP, Out.bind_ok, PSt.put, hm, hI, and_self, if_true, hsl, M.lift_ok, putW, modD, hlast]
    · refine hd.write ho hd.dinv.bas ?_ ?_ ?_
      · rw [hlast]; rfl
      · intro p hpne
        rw [Finset.range_add_one, Finset.filter_insert, if_neg (by rintro ⟨h1, _⟩; exact hpne h1.symm)]
      · intro x hx
        have hsing : (range (o + 1)).filter (fun o' => last P.op o' = last P.op o ∧ (P.op.out o').mode = .none) = {o} := by
          ext o'
          simp only [mem_filter, mem_range, mem_singleton]
          constructor
          · rintro ⟨h1, h2, h3⟩
            refine h.none_alone ho (by omega) ?_ hm
            have h4 := last_same P.op (j := o') (by omega)
            rw [h2, hlast] at h4
            exact h4
          · rintro rfl; exact ⟨by omega, rfl, hm⟩
        rw [hsing, sum_singleton]
        unfold elOut paste
        unfold cntR at hx
        rw [if_pos k1, k2] at hx
        rw [if_pos hm]
        simp only []
        rw [if_pos ⟨Nat.zero_le _, by show _ < 0 + S.np e * (P.op.out o).size; omega⟩, Nat.sub_zero]
  · refine ⟨d, ?_, ?_⟩
    · simp only [M.bind_apply, getP, Out.bind_ok, hm, false_and, if_false, M.pure_apply]
    · have : (fun p => (range (o + 1)).filter (fun o' => last P.op o' = p ∧ (P.op.out o').mode = .none)) =
          fun p => (range o).filter (fun o' => last P.op o' = p ∧ (P.op.out o').mode = .none) := by
        funext p
        rw [Finset.range_add_one, Finset.filter_insert, if_neg (by rintro ⟨_, h1⟩; exact hm h1)]
      rw [this]
      exact hd

theorem outBasisEl_ok [IsStrictOrderedRing K] {P : POper K} {S : PMean K} {b0 : Nat → PBas K} (h : AtOK P S b0) (hI : P.op.isId = false)
    {L : Nat → Nat → K} {s : PSt K} (hp : APre P S L s.base) {en : Env K} (hen : Exact en)
    {e : Nat} (he : e < P.op.ne) (vs : Nat → LVec K) (off : Nat) {xe : Buf K} {y : Nat → Nat → K} {d : Dyn K} {o : Nat} (ho : o < P.op.nout)
    (hd : OutA P S b0 e xe y d (fun p => members P.op p o)) :
    ∃ d', outBasisEl P en (S.np e) y o (s.put d vs off) = .ok (s.put d' vs off) () ∧
      OutA P S b0 e xe y d' (fun p => members P.op p (o + 1)) := by
  unfold outBasisEl
  rcases mode_cases (P.op.out o).mode with hm | hm | hm
  · exact absurd hm (h.out o ho).notWeight
  · refine ⟨d, by rw [if_pos hm]; rfl, ?_⟩
    have : (fun p => members P.op p (o + 1)) = fun p => members P.op p o := by
      funext p
      unfold members
      ext o'
      simp only [mem_filter, mem_range]
      constructor
      · rintro ⟨h1, h2, h3⟩
        refine ⟨h1, h2, ?_⟩
        by_cases hoo : o' = o
        · subst hoo; exact Or.inr hm
        · exact h3.imp (fun _ => by omega) id
      · rintro ⟨h1, h2, h3⟩
        exact ⟨h1, h2, h3.imp (fun _ => by omega) id⟩
    rw [this]
    exact hd
  have hnn : (P.op.out o).mode ≠ .none := by
    intro hh; rw [hh] at hm; simp [isBasisMode] at hm
  rw [if_neg hnn, if_pos hm]
  have hone : 0 < S.np e := h.some ⟨o, ho, hnn⟩ e he
  obtain ⟨f1, f2, f3, f4, f5, f6, f7, i1, g1, qw, q, f8, f9, f10⟩ := (h.out o ho).basis hm
  obtain ⟨k1, _⟩ := f2.facts
  have hs := last_same P.op ho
  have hl := hd.dinv.w _ (last_lt P.op ho)
  set b := (b0 (P.outB o)).bas with hb
  have hlen : (d.w (last P.op o)).len = b.nc * b.P := by
    rw [hl, r_same hs]; unfold lenR; rw [if_neg k1, f4, f5, Nat.mul_comm]
  have hcnt : cntR P.op S e (P.op.out o).r = b.nc * b.P := by
    unfold cntR; rw [if_neg k1, f4, f5, Nat.mul_comm]
  have hmem : ∀ p, p ≠ last P.op o → members P.op p (o + 1) = members P.op p o := by
    intro p hpne
    unfold members
    ext o'
    simp only [mem_filter, mem_range]
    constructor
    · rintro ⟨h1, h2, h3⟩
      have : o' ≠ o := by rintro rfl; exact hpne h2.symm
      exact ⟨h1, h2, h3.imp (fun _ => by omega) id⟩
    · rintro ⟨h1, h2, h3⟩
      exact ⟨h1, h2, h3.imp (fun _ => by omega) id⟩
  have hins : members P.op (last P.op o) (o + 1) = insert o (members P.op (last P.op o) o) := by
    unfold members
    ext o'
    simp only [mem_filter, mem_range, mem_insert]
    constructor
    · rintro ⟨h1, h2, h3⟩
      by_cases hoo : o' = o
      · exact Or.inl hoo
      · exact Or.inr ⟨h1, h2, h3.imp (fun _ => by omega) id⟩
    · rintro (rfl | ⟨h1, h2, h3⟩)
      · exact ⟨ho, rfl, Or.inl (by omega)⟩
      · exact ⟨h1, h2, h3.imp (fun _ => by omega) id⟩
  have hnot : o ∉ members P.op (last P.op o) o := by
    unfold members
    simp [hnn]
  have hx : S.np e * b.dim ≤ d.xe.len := by
    rw [hd.dinv.xe, f7, Nat.mul_comm]; exact Nat.mul_le_mul_left _ (np_le he)
  have hu : S.np e * b.nc * b.qComp (P.op.out o).mode ≤ (⟨d.mx * (P.op.out o).size, y o⟩ : Buf K).len := by
    show _ ≤ d.mx * (P.op.out o).size
    rw [hd.dinv.mx, Nat.mul_assoc, ← f6]; exact Nat.mul_le_mul_right _ (np_le he)
  have hsum : ∀ x < b.nc * b.P, ∑ p ∈ range (S.np e), ∑ k ∈ range (b.qComp (P.op.out o).mode),
        (⟨d.mx * (P.op.out o).size, y o⟩ : Buf K).val (pointPos b.nc (S.np e) k (x / b.P) p) *
          Basis.shapeAt b (S.phi (P.outB o)) (P.op.out o).mode (S.np e) d.xe k p (x % b.P) = elOut P S (S.np e) xe y o x := by
    intro x _
    unfold elOut
    rw [if_neg hnn, f3, hd.xe]
  have key : ∃ bs' v, (if s.base.impl.ot.add o then
        Basis.applyAddAtPoints en 1 ⟨1, fun _ => S.np e⟩ .transpose (P.op.out o).mode (some d.xe) (some ⟨d.mx * (P.op.out o).size, y o⟩) (d.w (last P.op o))
      else Basis.applyAtPoints en 1 ⟨1, fun _ => S.np e⟩ .transpose (P.op.out o).mode (some d.xe) (some ⟨d.mx * (P.op.out o).size, y o⟩) (d.w (last P.op o)))
        (d.bas (P.outB o)) = .ok bs' v ∧ Used (b0 (P.outB o)) bs' ∧
      v.len = (d.w (last P.op o)).len ∧ ∀ x < b.nc * b.P, v.val x = ∑ o' ∈ members P.op (last P.op o) (o + 1), elOut P S (S.np e) xe y o' x := by
    by_cases ha : s.base.impl.ot.add o = true
    · have hex := (hp.oadd o ho).1 ha
      obtain ⟨bs', v, e1, e2, e3, _⟩ := Basis.C25_add_partial f8 (hd.dinv.bas (P.outB o)) f9 (f10 hex) hen f1 (np := ⟨1, fun _ => S.np e⟩)
        (by show 0 < 1; omega) (x := d.xe) (u := ⟨d.mx * (P.op.out o).size, y o⟩) (v := d.w (last P.op o)) hone hx hu hlen.ge
      refine ⟨bs', v, by rw [if_pos ha]; exact e1, Used.applyAdd (hd.dinv.bas _) hen (Or.inl ⟨v, e1⟩), e2, ?_⟩
      intro x hx'
      have hP : 0 < b.P := Nat.pos_of_ne_zero (by intro h0; rw [h0] at hx'; simp at hx')
      have := e3 (x / b.P) (Nat.div_lt_of_lt_mul (by rw [Nat.mul_comm]; exact hx')) (x % b.P) (Nat.mod_lt _ hP)
      rw [Nat.div_add_mod'] at this
      rw [this]
      refine Eq.trans (congrArg _ (hsum x hx')) ?_
      rw [hins, sum_insert hnot, add_comm]
      congr 1
      obtain ⟨i, hi, hsame⟩ := hex
      have hne : (members P.op (last P.op o) o).Nonempty :=
        ⟨i, by unfold members; rw [mem_filter, mem_range]; exact ⟨by omega, last_congr P.op (by omega) ho hsame, Or.inl hi⟩⟩
      exact hd.val (last P.op o) (last_lt P.op ho) hne x (by rw [r_same hs, hcnt]; exact hx')
    · obtain ⟨bs', v, e1, e2, e3, _⟩ := Basis.C25_transpose_partial f8 (hd.dinv.bas (P.outB o)) f9 hen f1 (np := ⟨1, fun _ => S.np e⟩)
        (by show 0 < 1; omega) (x := d.xe) (u := ⟨d.mx * (P.op.out o).size, y o⟩) (v := d.w (last P.op o)) hone hx hu hlen.ge
      refine ⟨bs', v, by rw [if_neg ha]; exact e1, Used.apply (hd.dinv.bas _) hen (Or.inl ⟨v, e1⟩), e2, ?_⟩
      intro x hx'
      have hP : 0 < b.P := Nat.pos_of_ne_zero (by intro h0; rw [h0] at hx'; simp at hx')
      have := e3 (x / b.P) (Nat.div_lt_of_lt_mul (by rw [Nat.mul_comm]; exact hx')) (x % b.P) (Nat.mod_lt _ hP)
      rw [Nat.div_add_mod'] at this
      rw [this]
      refine Eq.trans (hsum x hx') ?_
      rw [hins, sum_insert hnot]
      have hemp : members P.op (last P.op o) o = ∅ := by
        rw [Finset.eq_empty_iff_forall_notMem]
        intro o' hmem'
        unfold members at hmem'
        rw [mem_filter, mem_range] at hmem'
        obtain ⟨h1, h2, h3⟩ := hmem'
        have hsame : (P.op.out o').same (P.op.out o) = true := by
          have h4 := last_same P.op h1
          rw [h2] at h4
          exact same_trans (same_symm h4) hs
        by_cases hlt : o' < o
        · exact ha ((hp.oadd o ho).2 ⟨o', hlt, hsame⟩)
        · rcases h3 with h3 | h3
          · exact hlt h3
          · have := h.none_alone h1 ho hsame h3
            rw [this] at hnn; exact hnn h3
      rw [hemp, sum_empty, add_zero]
  obtain ⟨bs', v, e1, e2, e3, e4⟩ := key
  refine ⟨{ d with w := Function.update d.w (last P.op o) v, bas := Function.update d.bas (P.outB o) bs' }, ?_, ?_⟩
  · have hn : ¬ (P.op.isId = true ∧ o = 0) := by rw [hI]; simp
    simp only [M.bind_apply, getP, Out.bind_ok, PSt.put, hp.ofull o ho, pptr, M.pure_apply, if_neg hn, onBas, e1, putW, modD]
  · refine hd.write ho ?_ e3 hmem ?_
    · intro id
      by_cases hid : id = P.outB o
      · subst hid; rw [Function.update_self]; exact e2
      · rw [Function.update_of_ne hid]; exact hd.dinv.bas id
    · intro x hx'
      exact e4 x (by rw [← hcnt]; exact hx')

/-! ## Adding into the vectors -/

/-- Readiness of one output. -/
def OutL (P : POper K) (outv : VPtr) (vs : Nat → LVec K) (o : Nat) : Prop :=
  ∃ v, (P.op.out o).vec.ptr outv = .vec v ∧ (vs v).valid = true ∧ FitsL (P.op.rstrs (P.op.out o).r) (vs v).buf.len

/-- What the roots `< j` have added. -/
def rootSum (op : Oper K) (outv : VPtr) (g : Nat → K) (j v : Nat) : K :=
  ∑ p ∈ range j, if last op p = p ∧ (op.out p).vec.ptr outv = .vec v then
    ∑ o ∈ (range op.nout).filter (fun o => last op o = p), g o else 0

theorem rootSum_eq {op : Oper K} {outv : VPtr} {g : Nat → K} (v : Nat) :
    rootSum op outv g op.nout v = ∑ o ∈ range op.nout, if (op.out o).vec.ptr outv = .vec v then g o else 0 := by
  have h1 : rootSum op outv g op.nout v = ∑ p ∈ range op.nout, ∑ o ∈ (range op.nout).filter (fun o => last op o = p),
      if (op.out o).vec.ptr outv = .vec v then g o else 0 := by
    unfold rootSum
    refine sum_congr rfl (fun p hp => ?_)
    rw [mem_range] at hp
    have hvec : ∀ o ∈ (range op.nout).filter (fun o => last op o = p), (op.out o).vec = (op.out p).vec := by
      intro o ho
      rw [mem_filter, mem_range] at ho
      have := last_same op ho.1
      rw [ho.2] at this
      exact (same_iff.1 this).1.symm
    by_cases hr : last op p = p
    · by_cases hv : (op.out p).vec.ptr outv = .vec v
      · rw [if_pos ⟨hr, hv⟩]
        refine sum_congr rfl (fun o ho => ?_)
        rw [hvec o ho, if_pos hv]
      · rw [if_neg (by rintro ⟨_, h2⟩; exact hv h2)]
        refine (sum_eq_zero (fun o ho => ?_)).symm
        rw [hvec o ho, if_neg hv]
    · rw [if_neg (by rintro ⟨h2, _⟩; exact hr h2)]
      refine (sum_eq_zero (fun o ho => ?_)).symm
      rw [mem_filter, mem_range] at ho
      exact absurd (by rw [← ho.2]; exact last_last op ho.1) hr
  rw [h1]
  exact sum_fiberwise_of_maps_to (fun o ho => mem_range.2 (last_lt op (mem_range.1 ho))) _

theorem OutL.step {P : POper K} {outv : VPtr} {a b : Nat → LVec K} (h : VStep P.op outv a b) (o : Nat) :
    OutL P outv b o ↔ OutL P outv a o := by
  unfold OutL
  constructor
  · rintro ⟨v, h2, h3, h4⟩
    exact ⟨v, h2, by rw [← h.valid]; exact h3, by rw [← (h.adv v).1]; exact h4⟩
  · rintro ⟨v, h2, h3, h4⟩
    exact ⟨v, h2, by rw [h.valid]; exact h3, by rw [(h.adv v).1]; exact h4⟩

theorem scatterEl_wp {P : POper K} {S : PMean K} {b0 : Nat → PBas K} (h : AtOK P S b0) {s : PSt K} {o : Nat} (ho : o < P.op.nout)
    {outv : VPtr} {e : Nat} (he : e < P.op.ne) {d : Dyn K} {off : Nat} {vs : Nat → LVec K} {u : Buf K}
    (hu : u.len = lenR P.op S (mxOf P.op S) (P.op.out o).r) {R : Prop} (hR : R → OutL P outv vs o) :
    M.wp R (onP (scatterEl (P.op.rstrs (P.op.out o).r) e u ((P.op.out o).vec.ptr outv))) (s.put d vs off) (fun s' _ => OutL P outv vs o ∧
      ∃ vs', s' = s.put d vs' off ∧ VStep P.op outv vs vs' ∧
      ∀ v t, (vs' v).buf.val t = (vs v).buf.val t + if (P.op.out o).vec.ptr outv = .vec v then scR P.op S e (P.op.out o).r u.val t else 0)
      (fun s' _ => ¬ R ∧ s' = s.put d vs off) := by
  obtain ⟨hrk, _⟩ := (h.out o ho).ok
  by_cases hrdy : OutL P outv vs o
  · obtain ⟨v, h2, h3, h4⟩ := id hrdy
    have hrun := addEl_ok hrk he (u := u) h4 (Or.inl hu)
    refine M.wp_of_eq_ok (s' := s.put d (Function.update vs v ⟨(vs v).state + 2, true, ⟨(vs v).buf.len,
        fun t => (vs v).buf.val t + scR P.op S e (P.op.out o).r u.val t⟩⟩) off) (a := ()) ?_ ⟨hrdy, _, rfl, ⟨?_, ?_, ?_⟩, ?_⟩
    · rw [h2]
      unfold scatterEl
      simp only [onP, PSt.put, h3, if_true, hrun]
    · exact Advances.update rfl (by show _ < (vs v).state + 2; omega)
    · intro v1
      by_cases hv : v1 = v
      · rw [hv, Function.update_self]; exact h3.symm
      · rw [Function.update_of_ne hv]
    · intro v1 hv1
      have : v1 ≠ v := fun hh => hv1 o ho (by rw [h2, hh])
      rw [Function.update_of_ne this]
    · intro v1 t
      by_cases hv : v1 = v
      · subst hv
        rw [Function.update_self, if_pos h2]
      · rw [Function.update_of_ne hv, if_neg, add_zero]
        intro h5
        rw [h2] at h5; cases h5; exact hv rfl
  · have hnR : ¬ R := fun hr' => hrdy (hR hr')
    unfold OutL at hrdy
    generalize (P.op.out o).vec.ptr outv = p at hrdy ⊢
    match p, hrdy with
    | .null, _ => exact M.wp_of_eq_ub rfl hnR
    | .none, _ => exact M.wp_of_eq_err (s' := s.put d vs off) (a := .dimension) rfl ⟨hnR, rfl⟩
    | .vec v, hrdy =>
      by_cases hval : (vs v).valid = true
      · have hshort : ¬ FitsL (P.op.rstrs (P.op.out o).r) (vs v).buf.len := fun hl => hrdy ⟨v, rfl, hval, hl⟩
        obtain ⟨c, hc⟩ := addEl_err hrk he (u := u) hshort
        refine M.wp_of_eq_err (a := c) (s' := s.put d vs off) ?_ ⟨hnR, rfl⟩
        unfold scatterEl
        simp only [onP, PSt.put, hval, if_true, hc]
      · refine M.wp_of_eq_err (a := .backend) (s' := s.put d vs off) ?_ ⟨hnR, rfl⟩
        unfold scatterEl
        simp only [onP, PSt.put, hval]
        simp

/-- All outputs on an element, QFunctions other than the identity. -/
theorem outputsEl_wp [IsStrictOrderedRing K] {P : POper K} {S : PMean K} {b0 : Nat → PBas K} (h : AtOK P S b0) (hI : P.op.isId = false)
    {L : Nat → Nat → K} {s : PSt K} (hp : APre P S L s.base) {en : Env K} (hen : Exact en)
    {e : Nat} (he : e < P.op.ne) {vs : Nat → LVec K} {off : Nat} {xe : Buf K} {y : Nat → Nat → K} {d : Dyn K} {outv : VPtr}
    (hd : OutA P S b0 e xe y d (fun p => members P.op p 0)) {R : Prop} (hR : R → ∀ o < P.op.nout, OutL P outv vs o) :
    M.wp R (M.loop P.op.nout (outputEl P en outv e (S.np e) y)) (s.put d vs off) (fun s' _ =>
      (∀ o < P.op.nout, OutL P outv vs o) ∧ ∃ d' vs', s' = s.put d' vs' off ∧ OutA P S b0 e xe y d' (fun p => members P.op p P.op.nout) ∧ VStep P.op outv vs vs' ∧
      ∀ v t, (vs' v).buf.val t = (vs v).buf.val t + ∑ o ∈ range P.op.nout, if (P.op.out o).vec.ptr outv = .vec v then
        scR P.op S e (P.op.out o).r (elOut P S (S.np e) xe y o) t else 0)
      (fun s' _ => ¬ R ∧ ∃ d' vs', s' = s.put d' vs' off ∧ DInv P S b0 d' ∧ VStep P.op outv vs vs') := by
  set g : Nat → Nat → K := fun t o => scR P.op S e (P.op.out o).r (elOut P S (S.np e) xe y o) t with hg
  refine M.wp_mono (M.wp_loop (fun a s' => (∀ o < a, last P.op o = o → OutL P outv vs o) ∧ ∃ d' vs', s' = s.put d' vs' off ∧
      OutA P S b0 e xe y d' (fun p => members P.op p a) ∧ VStep P.op outv vs vs' ∧
      ∀ v t, (vs' v).buf.val t = (vs v).buf.val t + rootSum P.op outv (g t) a v) ?_ ?_) ?_ (fun _ _ hh => hh)
  · refine ⟨fun o ho => absurd ho (by omega), d, vs, rfl, hd, VStep.refl _ _ _, fun v t => ?_⟩
    unfold rootSum; simp
  · rintro o ho s' ⟨a1, d1, vs1, rfl, a2, a3, a4⟩
    unfold outputEl
    obtain ⟨d2, e2, b2⟩ := outBasisEl_ok h hI hp hen he vs1 off ho a2
    rw [M.wp_bind]
    refine M.wp_of_eq_ok e2 ?_
    have hge := le_last P.op ho (same_refl (P.op.out o))
    have hsucc : ∀ v t, rootSum P.op outv (g t) (o + 1) v = rootSum P.op outv (g t) o v +
        if last P.op o = o ∧ (P.op.out o).vec.ptr outv = .vec v then
          ∑ o' ∈ (range P.op.nout).filter (fun o' => last P.op o' = o), g t o' else 0 := by
      intro v t; unfold rootSum; rw [sum_range_succ]
    unfold outScatterEl
    rw [M.wp_bind]
    refine M.wp_of_eq_ok (s' := s.put d2 vs1 off) (a := s.put d2 vs1 off) rfl ?_
    by_cases hlt : o < last P.op o
    · rw [if_pos (show (s.put d2 vs1 off).base.impl.ot.skip o = true from (hp.oskip o ho).2 hlt), M.wp_pure]
      refine ⟨?_, d2, vs1, rfl, b2, a3, ?_⟩
      · intro o1 ho1 hroot
        have : o1 ≠ o := fun hh => by rw [hh] at hroot; omega
        exact a1 o1 (by omega) hroot
      · intro v t
        rw [a4, hsucc, if_neg (by rintro ⟨h2, _⟩; omega), add_zero]
    · rw [if_neg (show ¬ (s.put d2 vs1 off).base.impl.ot.skip o = true from fun hh => hlt ((hp.oskip o ho).1 hh)), M.wp_bind]
      have hroot : last P.op o = o := by omega
      refine M.wp_of_eq_ok (s' := s.put d2 vs1 off) (a := o) ?_ ?_
      · show pptr (s.base.impl.ot.full o) _ = _
        rw [hp.ofull o ho, hroot]; rfl
      obtain ⟨_, hrid⟩ := (h.out o ho).ok
      rw [M.wp_bind]
      refine M.wp_of_eq_ok (s' := s.put d2 vs1 off) (a := (P.op.out o).r) (by rw [hrid]; rfl) ?_
      rw [if_neg (show ¬ (P.op.isId = true ∧ o = 0) by rw [hI]; simp)]
      refine M.wp_mono (scatterEl_wp h (s := s) ho (outv := outv) he (d := d2) (off := off) (vs := vs1) (u := d2.w o) (b2.dinv.w o ho) (R := R)
        (fun r => (OutL.step a3 o).2 (hR r o ho))) ?_ ?_
      · rintro s' _ ⟨c1, vs2, rfl, c2, c3⟩
        refine ⟨?_, d2, vs2, rfl, b2, a3.trans c2, ?_⟩
        · intro o1 ho1 hr1
          by_cases hoo : o1 = o
          · rw [hoo]; exact (OutL.step a3 o).1 c1
          · exact a1 o1 (by omega) hr1
        · intro v t
          rw [c3, a4, hsucc, add_assoc]
          congr 2
          by_cases hv : (P.op.out o).vec.ptr outv = .vec v
          · rw [if_pos hv, if_pos ⟨hroot, hv⟩]
            have hcls : members P.op o (o + 1) = (range P.op.nout).filter (fun o' => last P.op o' = o) := by
              unfold members
              ext o'
              simp only [mem_filter, mem_range]
              constructor
              · rintro ⟨h1, h2, _⟩; exact ⟨h1, h2⟩
              · rintro ⟨h1, h2⟩
                refine ⟨h1, h2, Or.inl ?_⟩
                have := le_last P.op h1 (same_refl (P.op.out o'))
                omega
            have hne : (members P.op o (o + 1)).Nonempty := ⟨o, by rw [hcls, mem_filter, mem_range]; exact ⟨ho, hroot⟩⟩
            rw [scR_congr (b2.val o ho hne), scR_sum, hcls]
            refine sum_congr rfl (fun o' ho' => ?_)
            rw [mem_filter, mem_range] at ho'
            have := last_same P.op ho'.1
            rw [ho'.2] at this
            rw [hg, r_same this]
          · rw [if_neg hv, if_neg (by rintro ⟨_, h2⟩; exact hv h2)]
      · rintro s' _ ⟨c1, rfl⟩
        exact ⟨c1, d2, vs1, rfl, b2.dinv, a3⟩
  · rintro s' _ ⟨a1, d1, vs1, rfl, a2, a3, a4⟩
    refine ⟨?_, d1, vs1, rfl, a2, a3, ?_⟩
    · intro o ho
      have hs := last_same P.op ho
      obtain ⟨v, c2, c3, c4⟩ := a1 (last P.op o) (last_lt P.op ho) (last_last P.op ho)
      exact ⟨v, by rw [← (same_iff.1 hs).1]; exact c2, c3, by rw [← r_same hs]; exact c4⟩
    · intro v t
      rw [a4, rootSum_eq]

end Operator
end Verif
