import Verif.Operator.AtPointsDiagRun

/-!
# Diagonals of operators at points: unit vectors and elements (helper lemmas)
-/

set_option linter.unusedSectionVars false

namespace Verif
namespace Operator

open Finset Polynomial
open Restriction (RData Made Rstr Rep laneEnd PointsOK ptsIn ptAt ptsBefore)
open Basis (Bas EMode PBas Env Fresh Shape Exact Used pev along coord pointPos)

variable {K : Type} [Field K] [LinearOrder K]

/-- The vectors that are written. -/
def DW (P : POper K) (av tmp v : Nat) : Prop := v = av ∨ v = tmp ∨ ∃ o < P.op.nout, (P.op.out o).vec = .vec v

/-- Change of the vectors by the assembly of a diagonal. -/
structure WStep (P : POper K) (av tmp : Nat) (a b : Nat → LVec K) : Prop where
  adv : Advances a b
  valid : ∀ v, (b v).valid = (a v).valid
  other : ∀ v, ¬ DW P av tmp v → b v = a v

theorem WStep.refl (P : POper K) (av tmp : Nat) (a : Nat → LVec K) : WStep P av tmp a a :=
  ⟨Advances.refl _, fun _ => rfl, fun _ _ => rfl⟩

theorem WStep.trans {P : POper K} {av tmp : Nat} {a b c : Nat → LVec K} (h : WStep P av tmp a b) (h' : WStep P av tmp b c) : WStep P av tmp a c :=
  ⟨h.adv.trans h'.adv, fun v => (h'.valid v).trans (h.valid v), fun v hv => (h'.other v hv).trans (h.other v hv)⟩

theorem VStep.toW {P : POper K} {av tmp x : Nat} (hx : x = av ∨ x = tmp) {a b : Nat → LVec K} (h : VStep P.op (.vec x) a b) : WStep P av tmp a b := by
  refine ⟨h.adv, h.valid, fun v hv => h.other v (fun o ho hh => hv ?_)⟩
  cases ho' : (P.op.out o).vec with
  | active =>
    rw [ho'] at hh
    cases hh
    rcases hx with hx | hx
    · exact Or.inl hx
    · exact Or.inr (Or.inl hx)
  | none => rw [ho'] at hh; cases hh
  | vec u =>
    rw [ho'] at hh
    cases hh
    exact Or.inr (Or.inr ⟨o, ho, ho'⟩)

/-- Readiness of the vectors that are added into. -/
def DReady (P : POper K) (r av tmp : Nat) (vs : Nat → LVec K) : Prop :=
  (∀ o < P.op.nout, OutL P (.vec tmp) vs o) ∧ (vs av).valid = true ∧ FitsL (P.op.rstrs r) (vs av).buf.len

theorem DReady.step {P : POper K} {r av tmp : Nat} {a b : Nat → LVec K} (h : WStep P av tmp a b) (hr : DReady P r av tmp a) :
    DReady P r av tmp b := by
  refine ⟨fun o ho => ?_, by rw [h.valid]; exact hr.2.1, by rw [(h.adv av).1]; exact hr.2.2⟩
  obtain ⟨v, c1, c2, c3⟩ := hr.1 o ho
  exact ⟨v, c1, by rw [h.valid]; exact c2, by rw [(h.adv v).1]; exact c3⟩

/-! ## One output -/

/-- Data of element `e` before output `j` is picked: the outputs without basis from `j` on are as computed. -/
structure GA (P : POper K) (S : PMean K) (b0 : Nat → PBas K) (e : Nat) (xe : Buf K) (y : Nat → Nat → K) (d : Dyn K) (j : Nat) : Prop where
  dinv : DInv P S b0 d
  xe : d.xe = xe
  non : ∀ o, j ≤ o → o < P.op.nout → (P.op.out o).mode = .none → ∀ x < cntR P.op S e (P.op.out o).r, (d.w o).val x = y o x

theorem OutA.toGA {P : POper K} {S : PMean K} {b0 : Nat → PBas K} (h : AtOK P S b0) {e : Nat} {xe : Buf K} {y : Nat → Nat → K} {d : Dyn K}
    (hd : OutA P S b0 e xe y d (fun p => members P.op p P.op.nout)) : GA P S b0 e xe y d 0 := by
  refine ⟨hd.dinv, hd.xe, fun o _ ho hm x hx => ?_⟩
  have hlast : last P.op o = o := h.none_alone ho (last_lt P.op ho) (same_symm (last_same P.op ho)) hm
  have hmem : members P.op o P.op.nout = {o} := by
    unfold members
    ext o'
    simp only [mem_filter, mem_range, mem_singleton]
    constructor
    · rintro ⟨h1, h2, _⟩
      refine h.none_alone ho h1 ?_ hm
      have h4 := last_same P.op h1
      rw [h2] at h4
      exact h4
    · rintro rfl
      exact ⟨ho, hlast, Or.inl ho⟩
  have := hd.val o ho (by rw [hmem]; exact singleton_nonempty o) x hx
  rw [this, hmem, sum_singleton]
  unfold elOut
  rw [if_pos hm]

/-- Storing the E-vector of output `j`. -/
theorem GA.store {P : POper K} {S : PMean K} {b0 : Nat → PBas K} (h : AtOK P S b0) {e : Nat} {xe : Buf K} {y : Nat → Nat → K} {d : Dyn K} {j : Nat}
    (hj : j < P.op.nout) (hd : GA P S b0 e xe y d j) {v : Buf K} {bs : Nat → PBas K} (hb : ∀ id, Used (b0 id) (bs id))
    (hv : v.len = lenR P.op S (mxOf P.op S) (P.op.out j).r) :
    GA P S b0 e xe y { d with w := Function.update d.w (last P.op j) v, bas := bs } (j + 1) := by
  have hs := last_same P.op hj
  refine ⟨{ hd.dinv with w := ?_, bas := hb }, hd.xe, ?_⟩
  · intro p hp
    show (Function.update d.w (last P.op j) v p).len = _
    by_cases hpe : p = last P.op j
    · subst hpe
      rw [Function.update_self, hv, r_same hs]
    · rw [Function.update_of_ne hpe]; exact hd.dinv.w p hp
  · intro o hjo ho hm x hx
    show (Function.update d.w (last P.op j) v o).val x = _
    have hne : o ≠ last P.op j := by
      intro hh
      rw [← hh] at hs
      have := h.none_alone ho hj hs hm
      omega
    rw [Function.update_of_ne hne]
    exact hd.non o (by omega) ho hm x hx

theorem GA.weak {P : POper K} {S : PMean K} {b0 : Nat → PBas K} {e : Nat} {xe : Buf K} {y : Nat → Nat → K} {d : Dyn K} {j : Nat}
    (hd : GA P S b0 e xe y d j) : GA P S b0 e xe y d (j + 1) :=
  ⟨hd.dinv, hd.xe, fun o ho => hd.non o (by omega)⟩

theorem grabBasis_ok [IsStrictOrderedRing K] {P : POper K} {S : PMean K} {b0 : Nat → PBas K} (h : AtOK P S b0) (hI : P.op.isId = false)
    {L : Nat → Nat → K} {s : PSt K} (hp : APre P S L s.base) {en : Env K} (hen : Exact en)
    {e : Nat} (he : e < P.op.ne) (vs : Nat → LVec K) (off : Nat) {xe : Buf K} {y : Nat → Nat → K} {d : Dyn K} {j : Nat} (hj : j < P.op.nout)
    (hd : GA P S b0 e xe y d j) :
    ∃ d', grabBasis P en (S.np e) y j (s.put d vs off) = .ok (s.put d' vs off) () ∧ GA P S b0 e xe y d' (j + 1) ∧
      ∀ x < cntR P.op S e (P.op.out j).r, (d'.w (last P.op j)).val x = elOut P S (S.np e) xe y j x := by
  unfold grabBasis
  rcases mode_cases (P.op.out j).mode with hm | hm | hm
  · exact absurd hm (h.out j hj).notWeight
  · refine ⟨d, by rw [if_pos hm]; rfl, hd.weak, fun x hx => ?_⟩
    have hlast : last P.op j = j := h.none_alone hj (last_lt P.op hj) (same_symm (last_same P.op hj)) hm
    rw [hlast, hd.non j le_rfl hj hm x hx]
    unfold elOut
    rw [if_pos hm]
  have hnn : (P.op.out j).mode ≠ .none := by
    intro hh; rw [hh] at hm; simp [isBasisMode] at hm
  rw [if_neg hnn, if_pos hm]
  have hone : 0 < S.np e := h.some ⟨j, hj, hnn⟩ e he
  obtain ⟨f1, f2, f3, f4, f5, f6, f7, i1, g1, qw, q, f8, f9, f10⟩ := (h.out j hj).basis hm
  obtain ⟨k1, _⟩ := f2.facts
  have hs := last_same P.op hj
  have hl := hd.dinv.w _ (last_lt P.op hj)
  set b := (b0 (P.outB j)).bas with hb
  have hlen : (d.w (last P.op j)).len = b.nc * b.P := by
    rw [hl, r_same hs]; unfold lenR; rw [if_neg k1, f4, f5, Nat.mul_comm]
  have hcnt : cntR P.op S e (P.op.out j).r = b.nc * b.P := by
    unfold cntR; rw [if_neg k1, f4, f5, Nat.mul_comm]
  have hx : S.np e * b.dim ≤ d.xe.len := by
    rw [hd.dinv.xe, f7, Nat.mul_comm]; exact Nat.mul_le_mul_left _ (np_le he)
  have hu : S.np e * b.nc * b.qComp (P.op.out j).mode ≤ (⟨d.mx * (P.op.out j).size, y j⟩ : Buf K).len := by
    show _ ≤ d.mx * (P.op.out j).size
    rw [hd.dinv.mx, Nat.mul_assoc, ← f6]; exact Nat.mul_le_mul_right _ (np_le he)
  obtain ⟨bs', v, e1, e2, e3, _⟩ := Basis.C25_transpose_partial f8 (hd.dinv.bas (P.outB j)) f9 hen f1 (np := ⟨1, fun _ => S.np e⟩)
    (by show 0 < 1; omega) (x := d.xe) (u := ⟨d.mx * (P.op.out j).size, y j⟩) (v := d.w (last P.op j)) hone hx hu hlen.ge
  refine ⟨{ d with w := Function.update d.w (last P.op j) v, bas := Function.update d.bas (P.outB j) bs' }, ?_, ?_, ?_⟩
  · have hn : ¬ (P.op.isId = true ∧ j = 0) := by rw [hI]; simp
    simp only [M.bind_apply, getP, Out.bind_ok, PSt.put, hp.ofull j hj, pptr, M.pure_apply, if_neg hn, onBas, e1, putW, modD]
  · refine hd.store h hj ?_ (by rw [e2, hl, r_same hs])
    intro id
    by_cases hid : id = P.outB j
    · subst hid; rw [Function.update_self]; exact Used.apply (hd.dinv.bas _) hen (Or.inl ⟨v, e1⟩)
    · rw [Function.update_of_ne hid]; exact hd.dinv.bas id
  · intro x hx'
    rw [hcnt] at hx'
    show (Function.update d.w (last P.op j) v (last P.op j)).val x = _
    rw [Function.update_self]
    have hP : 0 < b.P := Nat.pos_of_ne_zero (by intro h0; rw [h0] at hx'; simp at hx')
    have := e3 (x / b.P) (Nat.div_lt_of_lt_mul (by rw [Nat.mul_comm]; exact hx')) (x % b.P) (Nat.mod_lt _ hP)
    rw [Nat.div_add_mod'] at this
    rw [this]
    unfold elOut
    rw [if_neg hnn, f3, hd.xe]

theorem nodesEl_ok {op : Oper K} {S : PMean K} {r : Nat} (h : RstrOK op S r) {e : Nat} (he : e < op.ne) :
    ∃ m, nodesEl (op.rstrs r) e = .ok m ∧ m * (op.rstrs r).numComp = cntR op S e r ∧
      (m = if (op.rstrs r).rtype = .points then S.np e else (op.rstrs r).elemSize) := by
  unfold nodesEl
  rcases h with h | h
  · obtain ⟨f1, _⟩ := h.facts
    obtain ⟨m, l, h1, h2, h3⟩ := h
    obtain ⟨g1, _⟩ := Restriction.createAtPoints_rep h1 h2
    refine ⟨S.np e, ?_, ?_, ?_⟩
    · rw [if_pos f1, g1.num he, Res.bind_ok, Int.toNat_natCast, h3 e he]
    · unfold cntR; rw [if_pos f1]
    · rw [if_pos f1]
  · obtain ⟨f1, f2, _⟩ := h.facts
    refine ⟨(op.rstrs r).elemSize, by rw [if_neg f1], ?_, by rw [if_neg f1]⟩
    unfold cntR
    rw [if_neg f1, f2.es, f2.nc]

theorem fr_grab {P : POper K} (hI : P.op.isId = false) (en : Env K) (av e np : Nat) (y : Nat → Nat → K) (pts : Bool) (n s j : Nat) :
    Fr (grabEl P en av e np y pts n s j) := by
  have hn : ¬ (P.op.isId = true ∧ j = 0) := by rw [hI]; simp
  unfold grabEl
  split
  swap
  · exact Fr.pure _
  split
  · exact Fr.pure _
  split
  · exact Fr.pure _
  refine (Fr.lift _).bind (fun m => ?_)
  split
  · exact Fr.pure _
  refine Fr.bind ?_ (fun _ => Fr.bind ?_ (fun _ => Fr.onP _))
  · unfold grabBasis
    split
    · exact Fr.pure _
    · split
      · refine Fr.getP.bind (fun s => (Fr.pptr _).bind (fun k => ?_))
        simp only [if_neg hn]
        exact (Fr.onBas _ _).bind (fun _ => Fr.putW _ _)
      · exact Fr.fail _
  · unfold grabKeep
    refine Fr.getP.bind (fun st => (Fr.pptr _).bind (fun k => ?_))
    refine (Fr.lift _).bind (fun x => ?_)
    simp only [if_neg hn]
    exact (Fr.putW _ _).bind (fun _ => Fr.pure _)

theorem grabEl_wp [IsStrictOrderedRing K] {P : POper K} {S : PMean K} {b0 : Nat → PBas K} (h : AtOK P S b0) {r : Nat} (hk : DiagAtOK P S r)
    {L : Nat → Nat → K} {s : PSt K} (hp : APre P S L s.base) {en : Env K} (hen : Exact en)
    {e : Nat} (he : e < P.op.ne) {vs : Nat → LVec K} (off : Nat) {xe : Buf K} {y : Nat → Nat → K} {d : Dyn K} {j : Nat} (hj : j < P.op.nout)
    (hd : GA P S b0 e xe y d j) {av tmp : Nat} {n : Nat} (hn : n < cntR P.op S e r) {R : Prop} (hR : R → DReady P r av tmp vs) :
    M.wp R (grabEl P en av e (S.np e) y (decide ((P.op.rstrs r).rtype = .points)) (cntR P.op S e r) n j) (s.put d vs off)
      (fun s' _ => ∃ d' vs', s' = s.put d' vs' off ∧ GA P S b0 e xe y d' (j + 1) ∧ WStep P av tmp vs vs' ∧
        (Unused P av → ∀ t, (vs' av).buf.val t = (vs av).buf.val t + if (P.op.out j).vec = .active then
          if S.place P.op e r n = t then elOut P S (S.np e) xe y j n else 0 else 0))
      (fun s' _ => ¬ R ∧ ∃ d' vs', s' = s.put d' vs' off ∧ DInv P S b0 d' ∧ WStep P av tmp vs vs') := by
  unfold grabEl
  by_cases ha : (P.op.out j).vec = .active
  swap
  · rw [if_neg ha, M.wp_pure]
    refine ⟨d, vs, rfl, hd.weak, WStep.refl _ _ _ _, fun _ t => ?_⟩
    rw [if_neg ha, add_zero]
  rw [if_pos ha]
  have hrid := hk.out j hj ha
  have hr : (P.op.out j).r = r := by unfold OField.r; rw [hrid]; rfl
  rw [hrid]
  simp only
  rw [if_neg (by simp)]
  have hrk := (h.out j hj).ok.1
  rw [hr] at hrk
  obtain ⟨m, e1, e2, _⟩ := nodesEl_ok hrk he
  rw [M.wp_bind]
  refine M.wp_of_eq_ok (s' := s.put d vs off) (a := m) (by rw [e1, M.lift_ok]) ?_
  rw [if_neg (by rw [Nat.mul_comm, e2]; simp)]
  obtain ⟨d1, e3, g1, g2⟩ := grabBasis_ok h hk.notId hp hen he vs off hj hd
  rw [M.wp_bind]
  refine M.wp_of_eq_ok e3 ?_
  have hs := last_same P.op hj
  have hl : (d1.w (last P.op j)).len = lenR P.op S (mxOf P.op S) (P.op.out j).r := by
    rw [g1.dinv.w _ (last_lt P.op hj), r_same hs]
  have hnl : n < (d1.w (last P.op j)).len := by
    rw [hl, hr]; exact lt_of_lt_of_le hn (cnt_le he r)
  set b' : Buf K := ⟨(d1.w (last P.op j)).len, fun t => if t = n then (d1.w (last P.op j)).val n else 0⟩ with hb'
  rw [M.wp_bind]
  refine M.wp_of_eq_ok (s' := s.put { d1 with w := Function.update d1.w (last P.op j) b', bas := d1.bas } vs off) (a := b') ?_ ?_
  · have hn : ¬ (P.op.isId = true ∧ j = 0) := by rw [hk.notId]; simp
    unfold grabKeep
    simp only [M.bind_apply, getP, Out.bind_ok, PSt.put, hp.ofull j hj, pptr, M.pure_apply, if_neg hn, Buf.rd_lt hnl, M.lift_ok, putW, modD, hb']
  have g3 : GA P S b0 e xe y { d1 with w := Function.update d1.w (last P.op j) b', bas := d1.bas } (j + 1) := by
    refine ⟨?_, g1.xe, ?_⟩
    · refine { g1.dinv with w := ?_ }
      intro p hp
      show (Function.update d1.w (last P.op j) b' p).len = _
      by_cases hpe : p = last P.op j
      · subst hpe
        rw [Function.update_self]; exact g1.dinv.w _ hp
      · rw [Function.update_of_ne hpe]; exact g1.dinv.w p hp
    · intro o hjo ho hm x hx
      show (Function.update d1.w (last P.op j) b' o).val x = _
      have hne : o ≠ last P.op j := by
        intro hh
        rw [← hh] at hs
        have := h.none_alone ho hj hs hm
        omega
      rw [Function.update_of_ne hne]
      exact g1.non o hjo ho hm x hx
  have hw := scatterEl_wp h (s := s) hj (outv := .vec av) he (d := { d1 with w := Function.update d1.w (last P.op j) b', bas := d1.bas })
    (off := off) (vs := vs) (u := b') hl (R := R) (fun rr => ⟨av, by rw [ha]; rfl, (hR rr).2.1, by rw [hr]; exact (hR rr).2.2⟩)
  rw [hr, show (P.op.out j).vec.ptr (.vec av) = .vec av by rw [ha]; rfl] at hw
  refine M.wp_mono hw ?_ ?_
  · rintro s' _ ⟨_, vs2, rfl, c2, c3⟩
    refine ⟨_, vs2, rfl, g3, c2.toW (Or.inl rfl), fun _ t => ?_⟩
    rw [c3 av t, if_pos rfl, if_pos ha]
    congr 1
    rw [hb']
    show scR P.op S e r (fun t => if t = n then (d1.w (last P.op j)).val n else 0) t = _
    rw [scR_single hk.plain he hn, g2 n (by rw [hr]; exact hn)]
  · rintro s' _ ⟨c1, rfl⟩
    exact ⟨c1, _, vs, rfl, g3.dinv, WStep.refl _ _ _ _⟩

/-! ## One unit vector -/

theorem PQ.fr {P : POper K} {S : PMean K} {b0 : Nat → PBas K} {L : Nat → Nat → K} {e : Nat} {xe : Buf K} {d d' : Dyn K} {a : Nat}
    {i : Option Nat} (h : PQ P S b0 L e xe d a i) (hd : DInv P S b0 d') (h1 : d'.q = d.q) (h2 : d'.eb = d.eb) (h3 : d'.xe = d.xe) :
    PQ P S b0 L e xe d' a i := by
  refine ⟨hd, h3.trans h.xe, ?_, ?_⟩
  · rw [h1]; exact h.pas
  · unfold qBuf
    rw [h1, h2]
    exact h.act

theorem probeEl_wp [IsStrictOrderedRing K] {P : POper K} {S : PMean K} {b0 : Nat → PBas K} (h : AtOK P S b0) {r : Nat} (hk : DiagAtOK P S r)
    {L : Nat → Nat → K} {s : PSt K} (hp : APre P S L s.base) {en : Env K} (hen : Exact en)
    {e : Nat} (he : e < P.op.ne) {vs : Nat → LVec K} (off : Nat) {xe : Buf K} (hX : CoordsAt P S L e xe) {d : Dyn K} {i : Nat} (hi : i < P.op.nin)
    (ha : (P.op.inp i).vec = .active) (hd : PQ P S b0 L e xe d P.op.nin (some i)) {av tmp : Nat} (hne : av ≠ tmp) (hav : Unused P av)
    {n : Nat} (hn : n < cntR P.op S e r)
    (hprev : 0 < n → ∀ x, (d.eb (first P.op i)).val x = if x = n - 1 then 1 else 0) {R : Prop} (hR : R → DReady P r av tmp vs) :
    M.wp R (probeEl P en av tmp e (S.np e) i (decide ((P.op.rstrs r).rtype = .points)) (cntR P.op S e r) n) (s.put d vs off)
      (fun s' _ => ∃ d' vs', s' = s.put d' vs' off ∧ PQ P S b0 L e xe d' P.op.nin (some i) ∧ (n + 1 = cntR P.op S e r → PQ P S b0 L e xe d' P.op.nin none) ∧
        (n + 1 < cntR P.op S e r → ∀ x, (d'.eb (first P.op i)).val x = if x = n then 1 else 0) ∧ WStep P av tmp vs vs' ∧
        ∀ t, (vs' av).buf.val t = (vs av).buf.val t + elDiag P S L r e xe i n t)
      (fun s' _ => ¬ R ∧ ∃ d' vs', s' = s.put d' vs' off ∧ DInv P S b0 d' ∧ WStep P av tmp vs vs') := by
  have hr : (P.op.inp i).r = r := by unfold OField.r; rw [hk.inp i hi ha]; rfl
  unfold probeEl
  obtain ⟨d1, e1, p1, u1⟩ := unitEl_ok h hp hi ha (vs := vs) off hd (n := n) (by rw [hr]; exact lt_of_lt_of_le hn (cnt_le he r)) hprev
  rw [M.wp_bind]
  refine M.wp_of_eq_ok e1 ?_
  obtain ⟨d2, e2, p2, u2, c2⟩ := unitBasis_ok h hp he hi ha (vs := vs) off p1 hen hX u1
  rw [M.wp_bind]
  refine M.wp_of_eq_ok e2 ?_
  rw [M.wp_bind]
  refine M.wp_of_eq_ok (s' := s.put d2 vs off) (a := s.put d2 vs off) rfl ?_
  simp only
  rw [show (s.put d2 vs off).d = d2 from rfl, c2]
  set y := P.F (S.np e) (arrZ P S L e (unitZ {i} n)) with hy
  obtain ⟨d3, e3, h3⟩ := loop_ok (n := P.op.nout) (body := directEl P (S.np e) y) (fun d => s.put d vs off)
    (fun j d => OutA P S b0 e xe y d (fun p => (range j).filter (fun o' => last P.op o' = p ∧ (P.op.out o').mode = .none))) (a := d2)
    ⟨p2.dinv, p2.xe, fun p _ hne => by simp at hne⟩
    (fun o ho d' hd' => directEl_ok h hk.notId he vs off ho hd')
  obtain ⟨q3, b3, x3⟩ := Fr.loop (fun o => fr_direct P (S.np e) y o) _ _ _ e3
  rw [M.wp_bind]
  refine M.wp_of_eq_ok e3 ?_
  have h4 : OutA P S b0 e xe y d3 (fun p => members P.op p 0) := by
    have : (fun p => members P.op p 0) =
        fun p => (range P.op.nout).filter (fun o' => last P.op o' = p ∧ (P.op.out o').mode = .none) := by
      funext p; unfold members; simp
    rw [this]; exact h3
  have p3 : PQ P S b0 L e xe d3 P.op.nin (some i) := p2.fr h4.dinv q3 b3 x3
  rw [M.wp_bind]
  refine M.wp_mono (wp_fr (outputsEl_wp h hk.notId hp hen he (outv := .vec tmp) (off := off) h4 (fun rr => (hR rr).1))
    (Fr.loop (fun o => fr_output hk.notId en (.vec tmp) e (S.np e) y o))) ?_ ?_
  swap
  · rintro s' _ ⟨c1, d4, vs', rfl, c2, c3⟩
    exact ⟨c1, d4, vs', rfl, c2, c3.toW (Or.inr rfl)⟩
  rintro s' _ ⟨⟨_, d4, vs4, rfl, a4, w4, v4⟩, q4, b4, x4⟩
  have p4 : PQ P S b0 L e xe d4 P.op.nin (some i) := p3.fr a4.dinv q4 b4 x4
  have hav4 : (vs4 av).buf.val = (vs av).buf.val := by
    rw [w4.other av]
    intro o ho hh
    have := hav.2.1 o ho
    cases hv : (P.op.out o).vec with
    | active => rw [hv] at hh; cases hh; exact hne rfl
    | none => rw [hv] at hh; cases hh
    | vec u => rw [hv] at hh this; cases hh; exact this rfl
  have W4 : WStep P av tmp vs vs4 := w4.toW (Or.inr rfl)
  rw [M.wp_bind]
  refine M.wp_mono (wp_fr (M.wp_loop (S := R) (s := s.put d4 vs4 off) (n := P.op.nout)
      (body := grabEl P en av e (S.np e) y (decide ((P.op.rstrs r).rtype = .points)) (cntR P.op S e r) n)
      (E := fun s' _ => ¬ R ∧ ∃ d' vs', s' = s.put d' vs' off ∧ DInv P S b0 d' ∧ WStep P av tmp vs vs')
      (fun j s' => ∃ d' vs', s' = s.put d' vs' off ∧ GA P S b0 e xe y d' j ∧ WStep P av tmp vs vs' ∧
        ∀ t, (vs' av).buf.val t = (vs av).buf.val t + ∑ o ∈ range j, if (P.op.out o).vec = .active then
          if S.place P.op e r n = t then elOut P S (S.np e) xe y o n else 0 else 0) ?_ ?_)
      (Fr.loop (fun o => fr_grab hk.notId en av e (S.np e) y _ _ n o))) ?_ (fun _ _ hh => hh)
  · exact ⟨d4, vs4, rfl, a4.toGA h, W4, fun t => by rw [hav4, range_zero, sum_empty, add_zero]⟩
  · rintro j hj s' ⟨d5, vs5, rfl, a1, a2, a3⟩
    refine M.wp_mono (grabEl_wp h hk hp hen he (vs := vs5) off hj a1 (av := av) (tmp := tmp) hn (fun rr => (hR rr).step a2)) ?_ ?_
    · rintro s' _ ⟨d6, vs6, rfl, b1, b2, b3⟩
      refine ⟨d6, vs6, rfl, b1, a2.trans b2, fun t => ?_⟩
      rw [b3 hav, a3, sum_range_succ, add_assoc]
    · rintro s' _ ⟨c1, d6, vs6, rfl, b1, b2⟩
      exact ⟨c1, d6, vs6, rfl, b1, a2.trans b2⟩
  rintro s' _ ⟨⟨d5, vs5, rfl, a5, w5, v5⟩, q5, b5, x5⟩
  have p5 : PQ P S b0 L e xe d5 P.op.nin (some i) := p4.fr a5.dinv q5 b5 x5
  have eb5 : d5.eb = d1.eb := by
    have h1 : d5.eb = d4.eb := b5
    have h2 : d4.eb = d3.eb := b4
    have h3 : d3.eb = d2.eb := b3
    rw [h1, h2, h3, u2]
  by_cases hlast : n + 1 = cntR P.op S e r
  · rw [if_pos hlast]
    obtain ⟨d6, e6, h6, x6, _, z6, q6, o6⟩ := clearQ_ok h (s := s) p5.dinv vs5 off hi ha
    have p6 : PQ P S b0 L e xe d6 P.op.nin none := by
      refine ⟨h6, x6.trans p5.xe, ?_, ?_⟩
      · intro j hj haj x hx
        have hji : j ≠ i := fun hh => haj (hh ▸ ha)
        rw [q6 j hji]; exact p5.pas j hj haj x hx
      · intro j hj haj _ x
        by_cases hji : j = i
        · subst hji; exact z6 x
        · rw [o6 j hji]; exact p5.act j hj haj (by simpa using hji) x
    refine M.wp_of_eq_ok e6 ⟨d6, vs5, rfl, ⟨p6.dinv, p6.xe, p6.pas, fun j hj haj _ => p6.act j hj haj (by simp)⟩, fun _ => p6,
      fun hh => absurd hlast (by omega), w5, v5⟩
  · rw [if_neg hlast, M.wp_pure]
    refine ⟨d5, vs5, rfl, p5, fun hh => absurd hh hlast, fun _ => ?_, w5, v5⟩
    rw [eb5]; exact u1

/-! ## One input, one element -/

theorem probeIn_wp [IsStrictOrderedRing K] {P : POper K} {S : PMean K} {b0 : Nat → PBas K} (h : AtOK P S b0) {r : Nat} (hk : DiagAtOK P S r)
    {L : Nat → Nat → K} {s : PSt K} (hp : APre P S L s.base) {en : Env K} (hen : Exact en)
    {e : Nat} (he : e < P.op.ne) {vs : Nat → LVec K} (off : Nat) {xe : Buf K} (hX : CoordsAt P S L e xe) {d : Dyn K} {i : Nat} (hi : i < P.op.nin)
    (hd : PQ P S b0 L e xe d P.op.nin none) {av tmp : Nat} (hne : av ≠ tmp) (hav : Unused P av) {R : Prop} (hR : R → DReady P r av tmp vs) :
    M.wp R (probeIn P en av tmp e (S.np e) i) (s.put d vs off)
      (fun s' _ => ∃ d' vs', s' = s.put d' vs' off ∧ PQ P S b0 L e xe d' P.op.nin none ∧ WStep P av tmp vs vs' ∧
        ∀ t, (vs' av).buf.val t = (vs av).buf.val t + if (P.op.inp i).vec = .active then
          ∑ n ∈ range (cntR P.op S e r), elDiag P S L r e xe i n t else 0)
      (fun s' _ => ¬ R ∧ ∃ d' vs', s' = s.put d' vs' off ∧ DInv P S b0 d' ∧ WStep P av tmp vs vs') := by
  unfold probeIn
  by_cases ha : (P.op.inp i).vec = .active
  swap
  · rw [if_neg ha, M.wp_pure]
    exact ⟨d, vs, rfl, hd, WStep.refl _ _ _ _, fun t => by rw [if_neg ha, add_zero]⟩
  rw [if_pos ha]
  have hrid := hk.inp i hi ha
  have hr : (P.op.inp i).r = r := by unfold OField.r; rw [hrid]; rfl
  have hrk := (h.inp i hi (h.act_notWeight hi ha)).ok.1
  rw [hr] at hrk
  obtain ⟨m, _, e2, e3⟩ := nodesEl_ok hrk he
  rw [hrid]
  simp only [decide_eq_true_eq]
  rw [← e3, e2]
  simp only [if_pos ha]
  refine M.wp_mono (M.wp_loop (fun a s' => ∃ d' vs', s' = s.put d' vs' off ∧ PQ P S b0 L e xe d' P.op.nin (some i) ∧
      (a = cntR P.op S e r → PQ P S b0 L e xe d' P.op.nin none) ∧
      (0 < a → a < cntR P.op S e r → ∀ x, (d'.eb (first P.op i)).val x = if x = a - 1 then 1 else 0) ∧ WStep P av tmp vs vs' ∧
      ∀ t, (vs' av).buf.val t = (vs av).buf.val t + ∑ n ∈ range a, elDiag P S L r e xe i n t) ?_ ?_) ?_ (fun _ _ hh => hh)
  · exact ⟨d, vs, rfl, ⟨hd.dinv, hd.xe, hd.pas, fun j hj haj _ => hd.act j hj haj (by simp)⟩, fun _ => hd, fun hh => absurd hh (by omega),
      WStep.refl _ _ _ _, fun t => by rw [range_zero, sum_empty, add_zero]⟩
  · rintro n hn s' ⟨d1, vs1, rfl, a1, _, a3, a4, a5⟩
    refine M.wp_mono (probeEl_wp h hk hp hen he (vs := vs1) off hX hi ha a1 hne hav hn (fun h0 => a3 h0 hn) (fun rr => (hR rr).step a4)) ?_ ?_
    · rintro s' _ ⟨d2, vs2, rfl, b1, b2, b3, b4, b5⟩
      refine ⟨d2, vs2, rfl, b1, b2, fun _ hh => b3 hh, a4.trans b4, fun t => ?_⟩
      rw [b5, a5, sum_range_succ, add_assoc]
    · rintro s' _ ⟨c1, d2, vs2, rfl, b1, b2⟩
      exact ⟨c1, d2, vs2, rfl, b1, a4.trans b2⟩
  · rintro s' _ ⟨d1, vs1, rfl, _, a2, _, a4, a5⟩
    exact ⟨d1, vs1, rfl, a2 rfl, a4, a5⟩

/-- Active inputs are zero. -/
def ZeroAct (P : POper K) (d : Dyn K) : Prop := ∀ j < P.op.nin, (P.op.inp j).vec = .active → ∀ x, (qBuf P d j).val x = 0

theorem diagElement_wp [IsStrictOrderedRing K] {P : POper K} {S : PMean K} {b0 : Nat → PBas K} (h : AtOK P S b0) {r : Nat} (hk : DiagAtOK P S r)
    {L : Nat → Nat → K} {s : PSt K} (hp : APre P S L s.base) {en : Env K} (hen : Exact en)
    {e : Nat} (he : e < P.op.ne) {vs : Nat → LVec K} {d : Dyn K} (hd : DInv P S b0 d) (hz : ZeroAct P d)
    (hC : P.coords (fun v => (vs v).buf.val) = P.coords L) {av tmp : Nat} (hne : av ≠ tmp) (hav : Unused P av)
    {R : Prop} (hR : R → CoordL P vs ∧ DReady P r av tmp vs) :
    M.wp R (diagElement P en av tmp e) (s.put d vs (ptsBefore S.offX e))
      (fun s' _ => ∃ d' vs', s' = s.put d' vs' (ptsBefore S.offX (e + 1)) ∧ DInv P S b0 d' ∧ ZeroAct P d' ∧ WStep P av tmp vs vs' ∧
        ∀ x, Unused P x → ∀ t, (vs' av).buf.val t =
          (vs av).buf.val t + elTrue P S (Function.update L x (Pi.single t 1)) (.vec x) (.vec x) e x t)
      (fun s' _ => ¬ R ∧ ∃ d' vs', s' = s.put d' vs' (ptsBefore S.offX e) ∧ DInv P S b0 d' ∧ WStep P av tmp vs vs') := by
  unfold diagElement
  rw [M.wp_bind]
  refine M.wp_mono (coordsEl_wp h hd vs (ptsBefore S.offX e) he (fun r => (hR r).1)) ?_ ?_
  swap
  · rintro s' _ ⟨c1, rfl⟩
    exact ⟨c1, d, vs, rfl, hd, WStep.refl _ _ _ _⟩
  rintro s' n ⟨rfl, xe, rfl, d1, hX, _⟩
  have hX' : CoordsAt P S L e xe := by
    intro p hp' dd hdd
    rw [hX p hp' dd hdd]
    unfold PMean.point
    rw [hC]
  obtain ⟨d2, e2, p2⟩ := loop_ok (n := P.op.nin) (body := passEl P en e (S.np e)) (fun d => s.put d vs (ptsBefore S.offX e))
    (fun j d => PQ P S b0 L e xe d j none) (a := { d with xe := xe })
    ⟨d1, rfl, fun j hj => absurd hj (by omega), fun j hj haj _ => hz j hj haj⟩
    (fun i hi d' hd' => passEl_ok h hp he hi hd' hen hX')
  rw [M.wp_bind]
  refine M.wp_of_eq_ok e2 ?_
  rw [M.wp_bind]
  refine M.wp_mono (M.wp_loop (fun a s' => ∃ d' vs', s' = s.put d' vs' (ptsBefore S.offX e) ∧ PQ P S b0 L e xe d' P.op.nin none ∧
      WStep P av tmp vs vs' ∧ ∀ t, (vs' av).buf.val t = (vs av).buf.val t + ∑ i ∈ range a, if (P.op.inp i).vec = .active then
          ∑ n ∈ range (cntR P.op S e r), elDiag P S L r e xe i n t else 0) ?_ ?_) ?_ (fun _ _ hh => hh)
  · exact ⟨d2, vs, rfl, p2, WStep.refl _ _ _ _, fun t => by rw [range_zero, sum_empty, add_zero]⟩
  · rintro i hi s' ⟨d3, vs3, rfl, a1, a2, a3⟩
    refine M.wp_mono (probeIn_wp h hk hp hen he (vs := vs3) (ptsBefore S.offX e) hX' hi a1 hne hav (fun rr => (hR rr).2.step a2)) ?_ ?_
    · rintro s' _ ⟨d4, vs4, rfl, b1, b2, b3⟩
      refine ⟨d4, vs4, rfl, b1, a2.trans b2, fun t => ?_⟩
      rw [b3, a3, sum_range_succ, add_assoc]
    · rintro s' _ ⟨c1, d4, vs4, rfl, b1, b2⟩
      exact ⟨c1, d4, vs4, rfl, b1, a2.trans b2⟩
  rintro s' _ ⟨d3, vs3, rfl, a1, a2, a3⟩
  have hoff : ptsBefore S.offX e + S.np e = ptsBefore S.offX (e + 1) := (Restriction.before_succ S.offX e).symm
  refine M.wp_of_eq_ok (s' := s.put d3 vs3 (ptsBefore S.offX (e + 1))) (a := ()) (by rw [← hoff]; rfl)
    ⟨d3, vs3, rfl, a1.dinv, fun j hj haj => a1.act j hj haj (by simp), a2, fun x hx t => ?_⟩
  rw [a3, ← elDiag_eq h hk he hX' hx t]
  unfold actIn
  rw [sum_filter]

theorem diagElements_wp [IsStrictOrderedRing K] {P : POper K} {S : PMean K} {b0 : Nat → PBas K} (h : AtOK P S b0) {r : Nat} (hk : DiagAtOK P S r)
    {L : Nat → Nat → K} {s : PSt K} (hp : APre P S L s.base) {en : Env K} (hen : Exact en)
    {vs : Nat → LVec K} {d : Dyn K} (hd : DInv P S b0 d) (hz : ZeroAct P d) {av tmp : Nat} (hne : av ≠ tmp) (hav : Unused P av)
    (hX : ∀ rX xv, P.points = some (rX, xv) → ¬ DW P av tmp xv ∧ (vs xv).buf.val = L xv)
    {R : Prop} (hR : R → CoordL P vs ∧ DReady P r av tmp vs) :
    M.wp R (M.loop P.op.ne (diagElement P en av tmp)) (s.put d vs 0)
      (fun s' _ => ∃ d' vs' off, s' = s.put d' vs' off ∧ DInv P S b0 d' ∧ WStep P av tmp vs vs' ∧
        ∀ x, Unused P x → ∀ t, (vs' av).buf.val t = (vs av).buf.val t + S.diagAt P L x t)
      (fun s' _ => ¬ R ∧ ∃ d' vs' off, s' = s.put d' vs' off ∧ DInv P S b0 d' ∧ WStep P av tmp vs vs') := by
  refine M.wp_mono (M.wp_loop (fun j s' => ∃ d' vs', s' = s.put d' vs' (ptsBefore S.offX j) ∧ DInv P S b0 d' ∧ ZeroAct P d' ∧
      WStep P av tmp vs vs' ∧ ∀ x, Unused P x → ∀ t, (vs' av).buf.val t = (vs av).buf.val t +
        ∑ e ∈ range j, elTrue P S (Function.update L x (Pi.single t 1)) (.vec x) (.vec x) e x t) ?_ ?_) ?_ (fun _ _ hh => hh)
  · refine ⟨d, vs, ?_, hd, hz, WStep.refl _ _ _ _, fun _ _ t => ?_⟩
    · unfold ptsBefore; rw [range_zero, sum_empty]
    · rw [range_zero, sum_empty, add_zero]
  · rintro e he s' ⟨d1, vs1, rfl, a1, a2, a3, a4⟩
    have hC : P.coords (fun v => (vs1 v).buf.val) = P.coords L := by
      unfold POper.coords
      match hp : P.points with
      | none => rfl
      | some (rX, xv) =>
        show (vs1 xv).buf.val = L xv
        rw [a3.other xv (hX rX xv hp).1, (hX rX xv hp).2]
    refine M.wp_mono (diagElement_wp h hk hp hen he (vs := vs1) a1 a2 hC hne hav (R := R) (fun rr => ⟨?_, (hR rr).2.step a3⟩)) ?_ ?_
    · intro rX xv hx
      rw [a3.other xv (hX rX xv hx).1]
      exact (hR rr).1 rX xv hx
    · rintro s' _ ⟨d2, vs2, rfl, b1, b2, b3, b4⟩
      refine ⟨d2, vs2, rfl, b1, b2, a3.trans b3, fun x hx t => ?_⟩
      rw [b4 x hx, a4 x hx, sum_range_succ, add_assoc]
    · rintro s' _ ⟨c1, d2, vs2, rfl, b1, b2⟩
      exact ⟨c1, d2, vs2, _, rfl, b1, a3.trans b2⟩
  · rintro s' _ ⟨d1, vs1, rfl, a1, _, a3, a4⟩
    exact ⟨d1, vs1, _, rfl, a1, a3, a4⟩

end Operator
end Verif
