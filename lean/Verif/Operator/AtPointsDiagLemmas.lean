import Verif.Operator.AtPointsDiagSpec
import Verif.Operator.AtPointsApply

/-!
# Diagonals of operators at points (helper lemmas)
-/

set_option linter.unusedSectionVars false

namespace Verif
namespace Operator

open Finset Polynomial
open Restriction (RData Made Rstr Rep laneEnd PointsOK ptsIn ptAt ptsBefore)
open Basis (Bas EMode PBas Env Fresh Shape Exact Used pev along coord pointPos)

variable {K : Type} [Field K] [LinearOrder K]

/-! ## Restrictions without orientations -/

/-- A restriction without orientations. -/
def PlainR (op : Oper K) (S : PMean K) (r : Nat) : Prop :=
  (op.rstrs r).rtype ≠ .points → ∀ e < op.ne, ∀ n < (S.D r).es, ∀ m < (S.D r).es, (S.D r).coef e n m = if n = m then 1 else 0

theorem gvR_place {op : Oper K} {S : PMean K} {r : Nat} (h : PlainR op S r) {e : Nat} (he : e < op.ne) (u : Nat → K) {x : Nat}
    (hx : x < cntR op S e r) : gvR op S e r u x = u (S.place op e r x) := by
  unfold gvR PMean.place
  by_cases hp : (op.rstrs r).rtype = .points
  · rw [if_pos hp, if_pos hp]
  · rw [if_neg hp, if_neg hp]
    unfold cntR at hx
    rw [if_neg hp] at hx
    have hn : 0 < (S.D r).es := Nat.pos_of_ne_zero (by rintro h0; rw [h0] at hx; simp at hx)
    have hm := Nat.mod_lt x hn
    unfold RData.row
    rw [sum_eq_single (x % (S.D r).es)]
    · rw [h hp e he _ hm _ hm, if_pos rfl, one_mul]
    · intro m hm' hne
      rw [mem_range] at hm'
      rw [h hp e he _ hm _ hm', if_neg (Ne.symm hne), zero_mul]
    · intro hh; exact absurd (mem_range.2 hm) hh

theorem scR_place {op : Oper K} {S : PMean K} {r : Nat} (h : PlainR op S r) {e : Nat} (he : e < op.ne) (w : Nat → K) (t : Nat) :
    scR op S e r w t = ∑ s ∈ range (cntR op S e r), if S.place op e r s = t then w s else 0 := by
  have hsplit : ∀ (a b : Nat) (f : Nat → K), ∑ s ∈ range (b * a), f s = ∑ j ∈ range b, ∑ p ∈ range a, f (j * a + p) := by
    intro a b f
    induction b with
    | zero => simp
    | succ b ih => rw [Nat.add_mul, Nat.one_mul, sum_range_add, ih, sum_range_succ]
  unfold scR cntR PMean.place
  by_cases hp : (op.rstrs r).rtype = .points
  · simp only [if_pos hp]
    rw [sum_comm, Nat.mul_comm, hsplit]
    refine sum_congr rfl (fun j _ => sum_congr rfl (fun p hp' => ?_))
    rw [mem_range] at hp'
    rw [div_enc hp', mod_enc hp']
    by_cases ht : t = ptAt (S.offs r) e p * (op.rstrs r).numComp + j
    · rw [if_pos ht, if_pos ht.symm]
    · rw [if_neg ht, if_neg (fun hh => ht hh.symm)]
  · simp only [if_neg hp]
    rw [Nat.mul_comm, hsplit]
    unfold RData.elemScatter
    refine sum_congr rfl (fun k _ => sum_congr rfl (fun n hn => ?_))
    rw [mem_range] at hn
    rw [div_enc hn, mod_enc hn, sum_eq_single n]
    · split
      · rw [h hp e he n hn n hn, if_pos rfl, one_mul]
      · rfl
    · intro m hm hne
      rw [mem_range] at hm
      split
      · rw [h hp e he n hn m hm, if_neg (Ne.symm hne), zero_mul]
      · rfl
    · intro hh; exact absurd (mem_range.2 hn) hh

/-- Adding an E-vector with one entry. -/
theorem scR_single {op : Oper K} {S : PMean K} {r : Nat} (h : PlainR op S r) {e : Nat} (he : e < op.ne) {s : Nat}
    (hs : s < cntR op S e r) (c : K) (t : Nat) :
    scR op S e r (fun x => if x = s then c else 0) t = if S.place op e r s = t then c else 0 := by
  rw [scR_place h he, sum_eq_single s]
  · rw [if_pos rfl]
  · intro x _ hne
    rw [if_neg hne]; split <;> rfl
  · intro hh; exact absurd (mem_range.2 hs) hh

theorem count_eq (op : Oper K) (S : PMean K) (e r : Nat) : S.count op e r = cntR op S e r := rfl

/-! ## Values at the points -/

/-- Entry `x` of the array of input `i` computed from the values `g` on element `e`. -/
noncomputable def inE (P : POper K) (S : PMean K) (L : Nat → Nat → K) (e i : Nat) (g : Nat → K) (x : Nat) : K :=
  match (P.op.inp i).mode with
  | .weight => 1
  | .none => g x
  | _ =>
    match (P.op.inp i).basis with
    | some b => ∑ m ∈ range b.P, g (x / S.np e % b.nc * b.P + m) *
        shapeVal b (S.phi (P.inB i)) (P.op.inp i).mode (S.point P L e (x % S.np e)) (x / S.np e / b.nc) m
    | none => 0

theorem inE_zero {P : POper K} {S : PMean K} {L : Nat → Nat → K} {e i : Nat} (hw : (P.op.inp i).mode ≠ .weight) (x : Nat) :
    inE P S L e i (fun _ => 0) x = 0 := by
  unfold inE
  split
  · rename_i h; exact absurd h hw
  · rfl
  · split
    · exact sum_eq_zero (fun m _ => zero_mul _)
    · rfl

theorem inE_congr {P : POper K} {S : PMean K} {b0 : Nat → PBas K} (h : AtOK P S b0) {L : Nat → Nat → K} {e i : Nat} (hi : i < P.op.nin)
    {g g' : Nat → K} (hg : ∀ x < cntR P.op S e (P.op.inp i).r, g x = g' x) {x : Nat} (hx : x < S.np e * (P.op.inp i).size) :
    inE P S L e i g x = inE P S L e i g' x := by
  rcases mode_cases (P.op.inp i).mode with hm | hm | hm
  · unfold inE; simp only [hm]
  · have hw : (P.op.inp i).mode ≠ .weight := by rw [hm]; simp
    obtain ⟨k1, k2⟩ := (h.inp i hi hw).none hm
    unfold inE; simp only [hm]
    refine hg x ?_
    unfold cntR; rw [if_pos k1, k2]; exact hx
  · obtain ⟨f1, f2, f3, f4, f5, f6, _⟩ := (h.inp i hi (weight_not_basis hm)).basis hm
    obtain ⟨k1, _⟩ := f2.facts
    have key : ∀ g : Nat → K, inE P S L e i g x = ∑ m ∈ range (b0 (P.inB i)).bas.P, g (x / S.np e % (b0 (P.inB i)).bas.nc * (b0 (P.inB i)).bas.P + m) *
        shapeVal (b0 (P.inB i)).bas (S.phi (P.inB i)) (P.op.inp i).mode (S.point P L e (x % S.np e)) (x / S.np e / (b0 (P.inB i)).bas.nc) m := by
      intro g
      unfold inE
      rcases f1 with f1 | f1 <;> simp only [f1, f3]
    rw [key, key]
    rw [f6] at hx
    obtain ⟨_, m2, _, _⟩ := mod_form hx
    refine sum_congr rfl (fun m hm' => ?_)
    rw [mem_range] at hm'
    rw [hg]
    unfold cntR
    rw [if_neg k1, ← f4, ← f5, Nat.mul_comm (b0 (P.inB i)).bas.P (b0 (P.inB i)).bas.nc]
    exact enc_lt m2 hm'

/-- The values the application computes. -/
theorem inValAt_eq {P : POper K} {S : PMean K} {b0 : Nat → PBas K} (h : AtOK P S b0) {L : Nat → Nat → K} {inv : VPtr} {e i : Nat}
    (hi : i < P.op.nin) (x : Nat) :
    S.inVal P L inv e i x = inE P S L e i (gvR P.op S e (P.op.inp i).r (cont L ((P.op.inp i).vec.ptr inv))) x := by
  rcases mode_cases (P.op.inp i).mode with hm | hm | hm
  · unfold inE PMean.inVal; simp only [hm]
  · have hw : (P.op.inp i).mode ≠ .weight := by rw [hm]; simp
    obtain ⟨k1, k2⟩ := (h.inp i hi hw).none hm
    unfold inE PMean.inVal gvR
    simp only [hm]
    rw [if_pos k1, k2]
    rfl
  · obtain ⟨f1, f2, f3, f4, f5, f6, _⟩ := (h.inp i hi (weight_not_basis hm)).basis hm
    obtain ⟨k1, _⟩ := f2.facts
    unfold inE PMean.inVal
    have key : ∑ m ∈ range (b0 (P.inB i)).bas.P, (S.D (P.op.inp i).r).row (cont L ((P.op.inp i).vec.ptr inv)) e (x / S.np e % (b0 (P.inB i)).bas.nc) m *
        shapeVal (b0 (P.inB i)).bas (S.phi (P.inB i)) (P.op.inp i).mode (S.point P L e (x % S.np e)) (x / S.np e / (b0 (P.inB i)).bas.nc) m =
      ∑ m ∈ range (b0 (P.inB i)).bas.P, gvR P.op S e (P.op.inp i).r (cont L ((P.op.inp i).vec.ptr inv)) (x / S.np e % (b0 (P.inB i)).bas.nc * (b0 (P.inB i)).bas.P + m) *
        shapeVal (b0 (P.inB i)).bas (S.phi (P.inB i)) (P.op.inp i).mode (S.point P L e (x % S.np e)) (x / S.np e / (b0 (P.inB i)).bas.nc) m := by
      refine sum_congr rfl (fun m hm' => ?_)
      rw [mem_range] at hm'
      congr 1
      unfold gvR
      rw [if_neg k1, ← f4, div_enc hm', mod_enc hm']
    rcases f1 with f1 | f1
    · rw [f1] at key; simp only [f1, f3]; exact key
    · rw [f1] at key; simp only [f1, f3]; exact key

/-- Basis action on the values `g` of one element. -/
theorem basisEl_core [IsStrictOrderedRing K] {P : POper K} {S : PMean K} {b0 : Nat → PBas K} (h : AtOK P S b0) {L : Nat → Nat → K} {s : PSt K}
    {e : Nat} (he : e < P.op.ne) {d : Dyn K} {i : Nat} (hi : i < P.op.nin) {vs : Nat → LVec K}
    (hd : DInv P S b0 d) (off : Nat) {en : Env K} (hen : Exact en) (hm : isBasisMode (P.op.inp i).mode = true)
    (hX : CoordsAt P S L e d.xe) {u : Buf K} (hu : u.len = lenR P.op S (mxOf P.op S) (P.op.inp i).r) {g : Nat → K}
    (hv : ∀ x < cntR P.op S e (P.op.inp i).r, u.val x = g x) :
    ∃ bs v, basisEl P en (S.np e) i u (s.put d vs off) = .ok (s.put { d with bas := bs, q := Function.update d.q i v } vs off) () ∧
      DInv P S b0 { d with bas := bs, q := Function.update d.q i v } ∧
      ∀ x < S.np e * (P.op.inp i).size, v.val x = inE P S L e i g x := by
  have hw := weight_not_basis hm
  obtain ⟨f1, f2, f3, f4, f5, f6, f7, i1, g1, w, q, f8, f9, _⟩ := (h.inp i hi hw).basis hm
  obtain ⟨k1, _⟩ := f2.facts
  set b := (b0 (P.inB i)).bas with hb
  have hlen : lenR P.op S (mxOf P.op S) (P.op.inp i).r = b.nc * b.P := by
    unfold lenR; rw [if_neg k1, f4, f5, Nat.mul_comm]
  have hcnt : cntR P.op S e (P.op.inp i).r = b.nc * b.P := by
    unfold cntR; rw [if_neg k1, f4, f5, Nat.mul_comm]
  have hql := hd.q i hi
  have hle : S.np e * (P.op.inp i).size ≤ mxOf P.op S * (P.op.inp i).size := Nat.mul_le_mul_right _ (np_le he)
  obtain ⟨s', v', e1, e2, e3, _⟩ := Basis.C25_evaluates_partial f8 (hd.bas (P.inB i)) f9 hen f1 (np := ⟨1, fun _ => S.np e⟩) (by show 0 < 1; omega)
    (x := d.xe) (u := u) (v := d.q i)
    (by show S.np e * b.dim ≤ _; rw [hd.xe, f7, Nat.mul_comm]; exact Nat.mul_le_mul_left _ (np_le he))
    (by rw [hu, hlen]) (by show S.np e * b.nc * b.qComp _ ≤ _; rw [hql, Nat.mul_assoc, ← f6]; exact hle)
  refine ⟨Function.update d.bas (P.inB i) s', v', ?_, ?_, ?_⟩
  · unfold basisEl
    simp only [M.bind_apply, getP, Out.bind_ok, PSt.put, onBas, e1, putQ, modD]
  · refine { hd with q := ?_, wt := ?_, bas := ?_ }
    · intro j hj
      show (Function.update d.q i v' j).len = _
      by_cases hji : j = i
      · subst hji; rw [Function.update_self, e2, hql]
      · rw [Function.update_of_ne hji]; exact hd.q j hj
    · intro j hj hwj x hx
      show (Function.update d.q i v' j).val x = _
      have : j ≠ i := fun hh => hw (hh ▸ hwj)
      rw [Function.update_of_ne this]; exact hd.wt j hj hwj x hx
    · intro id
      show Used _ (Function.update d.bas (P.inB i) s' id)
      by_cases hid : id = P.inB i
      · subst hid; rw [Function.update_self]; exact Used.apply (hd.bas _) hen (Or.inl ⟨v', e1⟩)
      · rw [Function.update_of_ne hid]; exact hd.bas id
  · intro x hx
    rw [f6] at hx
    obtain ⟨m1, m2, m3, m4⟩ := mod_form hx
    have h5 := e3 _ m3 _ m2 _ m1
    rw [show (⟨1, fun _ => S.np e⟩ : Buf Nat).val 0 = S.np e from rfl, m4] at h5
    rw [h5]
    have hin : inE P S L e i g x = ∑ m ∈ range b.P, g (x / S.np e % b.nc * b.P + m) *
        shapeVal b (S.phi (P.inB i)) (P.op.inp i).mode (S.point P L e (x % S.np e)) (x / S.np e / b.nc) m := by
      unfold inE
      rcases f1 with f1 | f1 <;> simp only [f1, f3]
    rw [hin]
    refine sum_congr rfl (fun m hm' => ?_)
    rw [mem_range] at hm'
    have hlt : x / S.np e % b.nc * b.P + m < b.nc * b.P := enc_lt m2 hm'
    rw [hv _ (by rw [hcnt]; exact hlt)]
    congr 1
    unfold Basis.shapeAt shapeVal
    refine prod_congr rfl (fun dd hdd => ?_)
    rw [mem_range] at hdd
    rw [hX _ m1 dd (by rw [← f7]; exact hdd)]

/-! ## Unit vectors -/

/-- The arrays given to the QFunction on element `e` when the active inputs have the values `z`. -/
noncomputable def arrZ (P : POper K) (S : PMean K) (L : Nat → Nat → K) (e : Nat) (z : Nat → Nat → K) : Nat → Nat → K := fun i x =>
  if i < P.op.nin ∧ x < S.np e * (P.op.inp i).size then
    if (P.op.inp i).vec = .active then inE P S L e i (z i) x else S.inVal P L .null e i x
  else 0

/-- Unit vector `s` in the inputs `T`. -/
def unitZ (T : Finset Nat) (s : Nat) : Nat → Nat → K := fun j x => if j ∈ T ∧ x = s then 1 else 0

theorem F_sum {P : POper K} {S : PMean K} {b0 : Nat → PBas K} (h : AtOK P S b0) (hl : LinearAt P) (L : Nat → Nat → K) (e s : Nat)
    (T : Finset Nat) (hT : ∀ i ∈ T, (P.op.inp i).vec = .active) {o : Nat} (ho : o < P.op.nout) (x : Nat) :
    P.F (S.np e) (arrZ P S L e (unitZ T s)) o x = ∑ i ∈ T, P.F (S.np e) (arrZ P S L e (unitZ {i} s)) o x := by
  have hz : ∀ T : Finset Nat, ∀ j, j ∉ T → ∀ x, (P.op.inp j).vec = .active → arrZ P S L e (unitZ T s) j x = 0 := by
    intro T j hj x ha
    unfold arrZ
    split
    · rename_i hh
      have hw : (P.op.inp j).mode ≠ .weight := by
        intro hm
        have := (h.weight j hh.1 hm).1
        rw [ha] at this; cases this
      have : (unitZ T s j : Nat → K) = fun _ => 0 := by
        funext x; unfold unitZ; rw [if_neg (fun hh => hj hh.1)]
      rw [this, inE_zero hw]
    · rfl
  have hpas : ∀ T T' : Finset Nat, ∀ j x, (P.op.inp j).vec ≠ .active → arrZ P S L e (unitZ T s) j x = arrZ P S L e (unitZ T' s) j x := by
    intro T T' j x ha
    unfold arrZ
    simp only [if_neg ha]
  induction T using Finset.induction_on with
  | empty =>
    rw [sum_empty]
    have := hl (S.np e) (arrZ P S L e (unitZ ∅ s)) (arrZ P S L e (unitZ ∅ s)) (arrZ P S L e (unitZ ∅ s)) 1
      (fun j x ha => by rw [hz ∅ j (by simp) x ha]; ring) (fun j x _ => ⟨rfl, rfl⟩) o ho x
    rw [one_mul] at this
    exact left_eq_add.1 this
  | insert i T hi ih =>
    rw [sum_insert hi, ← ih (fun j hj => hT j (mem_insert_of_mem hj))]
    have := hl (S.np e) (arrZ P S L e (unitZ T s)) (arrZ P S L e (unitZ {i} s)) (arrZ P S L e (unitZ (insert i T) s)) 1
      (fun j x ha => ?_) (fun j x ha => ⟨hpas _ _ j x ha, hpas _ _ j x ha⟩) o ho x
    · rw [this, one_mul, add_comm]
    · have hcong : ∀ T T' : Finset Nat, (j ∈ T ↔ j ∈ T') → arrZ P S L e (unitZ T s) j x = arrZ P S L e (unitZ T' s) j x := by
        intro T T' hh
        have : (unitZ T s j : Nat → K) = unitZ T' s j := by
          funext x; unfold unitZ; simp only [hh]
        unfold arrZ
        rw [this]
      by_cases hj : j = i
      · subst hj
        rw [hz T j hi x ha, zero_add, one_mul]
        exact hcong _ _ (by simp)
      · rw [hz {i} j (by simp [hj]) x ha, mul_zero, add_zero]
        exact hcong _ _ (by simp [hj])

theorem elOut_sum {P : POper K} {S : PMean K} {np : Nat} {xe : Buf K} {o : Nat} (T : Finset Nat) {y : Nat → Nat → K}
    {yy : Nat → Nat → Nat → K} (hy : ∀ x, y o x = ∑ i ∈ T, yy i o x) (x : Nat) :
    elOut P S np xe y o x = ∑ i ∈ T, elOut P S np xe (yy i) o x := by
  unfold elOut
  by_cases hm : (P.op.out o).mode = .none
  · simp only [if_pos hm]; exact hy x
  · simp only [if_neg hm]
    cases (P.op.out o).basis with
    | none => simp
    | some b =>
      simp only
      symm
      rw [sum_comm]
      refine sum_congr rfl (fun p _ => ?_)
      rw [sum_comm]
      refine sum_congr rfl (fun k _ => ?_)
      rw [hy, sum_mul]

/-- The active inputs. -/
def actIn (op : Oper K) : Finset Nat := (range op.nin).filter (fun i => (op.inp i).vec = .active)

/-- What the unit vectors of element `e` add to entry `t`. -/
noncomputable def elDiag (P : POper K) (S : PMean K) (L : Nat → Nat → K) (r e : Nat) (xe : Buf K) (i s t : Nat) : K :=
  ∑ o ∈ range P.op.nout, if (P.op.out o).vec = .active then
    if S.place P.op e r s = t then elOut P S (S.np e) xe (P.F (S.np e) (arrZ P S L e (unitZ {i} s))) o s else 0
  else 0

theorem unused_ptr {P : POper K} {x : Nat} (hx : Unused P x) {o : Nat} (ho : o < P.op.nout) :
    (P.op.out o).vec.ptr (.vec x) = .vec x ↔ (P.op.out o).vec = .active := by
  have := hx.2.1 o ho
  cases hv : (P.op.out o).vec with
  | active => simp [FVec.ptr]
  | none => simp [FVec.ptr]
  | vec v => rw [hv] at this; simpa [FVec.ptr] using this

theorem elDiag_eq {P : POper K} {S : PMean K} {b0 : Nat → PBas K} (h : AtOK P S b0) {r : Nat} (hk : DiagAtOK P S r) {L : Nat → Nat → K}
    {e : Nat} (he : e < P.op.ne) {xe : Buf K} (hX : CoordsAt P S L e xe) {x : Nat} (hx : Unused P x) (t : Nat) :
    ∑ i ∈ actIn P.op, ∑ s ∈ range (cntR P.op S e r), elDiag P S L r e xe i s t =
      elTrue P S (Function.update L x (Pi.single t 1)) (.vec x) (.vec x) e x t := by
  set L' := Function.update L x (Pi.single t (1 : K)) with hL'
  have hpt : S.point P L' = S.point P L := by
    funext e p d
    unfold PMean.point POper.coords
    match hp : P.points with
    | none => rfl
    | some (rX, xv) =>
      show L' xv _ = L xv _
      rw [hL', Function.update_of_ne (hx.2.2 rX xv hp)]
  have hX' : CoordsAt P S L' e xe := by
    intro p hp d hd
    rw [hX p hp d hd, hpt]
  have hinE : ∀ i g y, inE P S L' e i g y = inE P S L e i g y := by
    intro i g y
    unfold inE
    rw [hpt]
  have hr : ∀ i < P.op.nin, (P.op.inp i).vec = .active → (P.op.inp i).r = r := by
    intro i hi ha
    unfold OField.r; rw [hk.inp i hi ha]; rfl
  have hro : ∀ o < P.op.nout, (P.op.out o).vec = .active → (P.op.out o).r = r := by
    intro i hi ha
    unfold OField.r; rw [hk.out i hi ha]; rfl
  -- swap the sums
  have h1 : ∑ i ∈ actIn P.op, ∑ s ∈ range (cntR P.op S e r), elDiag P S L r e xe i s t =
      ∑ o ∈ range P.op.nout, if (P.op.out o).vec = .active then ∑ s ∈ range (cntR P.op S e r),
        if S.place P.op e r s = t then elOut P S (S.np e) xe (P.F (S.np e) (arrZ P S L e (unitZ (actIn P.op) s))) o s else 0 else 0 := by
    unfold elDiag
    rw [sum_comm]
    rw [show (∑ s ∈ range (cntR P.op S e r), ∑ i ∈ actIn P.op, ∑ o ∈ range P.op.nout, if (P.op.out o).vec = .active then
        if S.place P.op e r s = t then elOut P S (S.np e) xe (P.F (S.np e) (arrZ P S L e (unitZ {i} s))) o s else 0 else 0) =
      ∑ s ∈ range (cntR P.op S e r), ∑ o ∈ range P.op.nout, ∑ i ∈ actIn P.op, (if (P.op.out o).vec = .active then
        if S.place P.op e r s = t then elOut P S (S.np e) xe (P.F (S.np e) (arrZ P S L e (unitZ {i} s))) o s else 0 else 0) from
      sum_congr rfl (fun s _ => sum_comm)]
    rw [sum_comm]
    refine sum_congr rfl (fun o ho => ?_)
    rw [mem_range] at ho
    by_cases ha : (P.op.out o).vec = .active
    · simp only [if_pos ha]
      refine sum_congr rfl (fun s _ => ?_)
      by_cases hs : S.place P.op e r s = t
      · simp only [if_pos hs]
        refine (elOut_sum (actIn P.op) (fun y => ?_) s).symm
        exact F_sum h hk.lin L e s _ (fun i hi => (mem_filter.1 hi).2) ho y
      · simp only [if_neg hs, sum_const_zero]
    · simp only [if_neg ha, sum_const_zero]
  rw [h1]
  unfold elTrue
  refine sum_congr rfl (fun o ho => ?_)
  rw [mem_range] at ho
  by_cases ha : (P.op.out o).vec = .active
  swap
  · rw [if_neg ha, if_neg (fun hh => ha ((unused_ptr hx ho).1 hh))]
  rw [if_pos ha, if_pos ((unused_ptr hx ho).2 ha)]
  rw [← elemAdds_eq h ho hX' (y := S.outArr P L' (.vec x) e) (fun _ _ => rfl) t, hro o ho ha]
  rw [scR_place hk.plain he]
  refine sum_congr rfl (fun s hs => ?_)
  rw [mem_range] at hs
  split
  swap
  · rfl
  rename_i hst
  have harr : arrZ P S L e (unitZ (actIn P.op) s) = S.inArr P L' (.vec x) e := by
    funext i y
    unfold arrZ PMean.inArr
    split
    swap
    · rfl
    rename_i hiy
    by_cases hai : (P.op.inp i).vec = .active
    · rw [if_pos hai, inValAt_eq h hiy.1, hinE]
      refine inE_congr h hiy.1 (fun y' hy' => ?_) hiy.2
      rw [hr i hiy.1 hai] at hy' ⊢
      rw [gvR_place hk.plain he _ hy', hai]
      show _ = L' x _
      rw [hL', Function.update_self]
      unfold unitZ
      by_cases hys : y' = s
      · rw [if_pos ⟨mem_filter.2 ⟨mem_range.2 hiy.1, hai⟩, hys⟩, hys, hst, Pi.single_eq_same]
      · rw [if_neg (fun hh => hys hh.2), Pi.single_eq_of_ne]
        intro hh
        exact hys (hk.inj e he y' hy' s hs (hh.trans hst.symm))
    · rw [if_neg hai, inValAt_eq h hiy.1, inValAt_eq h hiy.1, hinE]
      congr 2
      have hne := hx.1 i hiy.1
      cases hv : (P.op.inp i).vec with
      | active => exact absurd hv hai
      | none => rfl
      | vec v =>
        rw [hv] at hne
        show L v = L' v
        rw [hL', Function.update_of_ne]
        intro hh; exact hne (by rw [hh])
  have hout : S.outArr P L' (.vec x) e = P.F (S.np e) (arrZ P S L e (unitZ (actIn P.op) s)) := by
    unfold PMean.outArr
    rw [hk.notId, harr]
    rfl
  rw [hout]

end Operator
end Verif
