import Verif.Operator.MultigridLemmas
import Verif.Operator.MatrixSpec
import Verif.Operator.Props
import Verif.Operator.Ready

/-!
# C46: multigrid levels
-/

set_option linter.unusedSectionVars false

namespace Verif
namespace Operator

open Finset
open Restriction (Rstr RData Made)
open Basis (Bas EMode MulBy MulByT AddByT)

variable {α : Type} [Field α] [LinearOrder α]

/-! ## Specification -/

/-- Entry `t` of the vector to which element `e` contributes `g e k n` at node `n` of component `k`. -/
def spread (D : RData α) (g : Nat → Nat → Nat → α) (t : Nat) : α :=
  ∑ e ∈ range D.ne, ∑ k ∈ range D.nc, ∑ n ∈ range D.es, ∑ m ∈ range D.es,
    if D.lidx e m k = t then D.coef e n m * g e k n else 0

/-- The function given by `u` on the coarse elements, at node `n` of the fine element. `B` is the interpolation matrix. -/
def interpE (B : Buf α) (D : RData α) (u : Nat → α) (e k n : Nat) : α :=
  ∑ c ∈ range D.es, B.val (n * D.es + c) * D.row u e k c

/-- Conditions on the objects: restrictions made by their creation functions, a new number for the unsigned copy, a scalar
basis that acts by the matrix `B` from coarse to fine nodes. -/
structure LevelOK (rs : Nat → Rstr) (D : Nat → RData α) (lf lc : Int) (rf rc ρ : Nat) (b : Bas α) (B : Buf α) : Prop where
  fine : Made .plain (rs rf) 1 lf (D rf)
  coarse : Made .plain (rs rc) 1 lc (D rc)
  new : ρ ≠ rf ∧ ρ ≠ rc
  nodes : b.P = (D rc).es
  scalar : b.isH1 = true
  pos : 0 < b.Q ∧ 0 < (D rf).es
  mul : MulBy b .interp B
  mulT : MulByT b .interp B

/-- Meaning of the fields of the transfer operators. -/
def levelMeaning (D : Nat → RData α) (rf ρ : Nat) (B : Buf α) : Meaning α where
  D := Function.update D ρ (D rf).unsigned
  mIn := fun _ => B
  mOut := fun _ => B
  w := fun _ _ => 0

/-! ## Helpers -/

theorem spread_adjoint (D : RData α) {L : Nat} (hL : ∀ e < D.ne, ∀ m < D.es, ∀ k < D.nc, D.lidx e m k < L)
    (u : Nat → α) (g : Nat → Nat → Nat → α) :
    ∑ t ∈ range L, u t * spread D g t = ∑ e ∈ range D.ne, ∑ k ∈ range D.nc, ∑ n ∈ range D.es, D.row u e k n * g e k n := by
  unfold spread
  simp only [mul_sum]
  rw [sum_comm]
  refine sum_congr rfl fun e he => ?_
  rw [sum_comm]
  refine sum_congr rfl fun k hk => ?_
  rw [sum_comm]
  refine sum_congr rfl fun n _ => ?_
  rw [sum_comm]
  simp only [RData.row, sum_mul]
  refine sum_congr rfl fun m hm => ?_
  rw [mem_range] at he hk hm
  simp only [mul_ite, mul_zero]
  rw [sum_ite_eq, if_pos (mem_range.2 (hL e he m hm k hk))]
  ring

theorem made_rng {r : Rstr} {l : Int} {D : RData α} (h : Made .plain r 1 l D) :
    ∀ e < D.ne, ∀ m < D.es, ∀ k < D.nc, D.lidx e m k < l.toNat := by
  intro e he m hm k hk
  obtain ⟨h1, _, h2⟩ := h.rep
  have := h1.rng e he m hm k hk
  omega

section
variable {rs : Nat → Rstr} {D : Nat → RData α} {lf lc : Int} {rf rc ρ : Nat} {b : Bas α} {B : Buf α} {nc μ : Nat}

theorem LevelOK.urf (h : LevelOK rs D lf lc rf rc ρ b B) (x : Rstr) : Function.update rs ρ x rf = rs rf :=
  Function.update_of_ne (Ne.symm h.new.1) _ _

theorem LevelOK.urc (h : LevelOK rs D lf lc rf rc ρ b B) (x : Rstr) : Function.update rs ρ x rc = rs rc :=
  Function.update_of_ne (Ne.symm h.new.2) _ _

theorem LevelOK.Drf (h : LevelOK rs D lf lc rf rc ρ b B) : (levelMeaning D rf ρ B).D rf = D rf :=
  Function.update_of_ne (Ne.symm h.new.1) _ _

theorem LevelOK.Drc (h : LevelOK rs D lf lc rf rc ρ b B) : (levelMeaning D rf ρ B).D rc = D rc :=
  Function.update_of_ne (Ne.symm h.new.2) _ _

theorem LevelOK.Dρ : (levelMeaning D rf ρ B).D ρ = (D rf).unsigned := Function.update_self _ _ _

/-- Sizes of the parts of a level. -/
structure Sizes (D : Nat → RData α) (rf rc nc : Nat) (b : Bas α) : Prop where
  ncf : (D rf).nc = nc
  ncc : (D rc).nc = nc
  ncb : b.nc = nc
  ne : (D rc).ne = (D rf).ne
  bQ : b.Q = (D rf).es
  qc : b.qComp .interp = 1

theorem LevelOK.sizes (h : LevelOK rs D lf lc rf rc ρ b B) {x : Rstr} (ha : Agree (Function.update rs ρ x) nc rf ρ rc b) :
    Sizes D rf rc nc b := by
  have hq : b.qComp .interp = 1 := by simp [Basis.Bas.qComp, h.scalar]
  obtain ⟨a1, a2, a3, a4, a5, a6, a7, a8⟩ := ha
  rw [h.urf] at a1 a8 a6
  rw [h.urc] at a3 a6
  have f := h.fine.rep.1
  have c := h.coarse.rep.1
  rw [hq, Nat.mul_one] at a4
  refine ⟨by rw [← f.nc, a1], by rw [← c.nc, a3, a4], a4.symm, ?_, by rw [a8, f.es], hq⟩
  have := f.ne
  have := c.ne
  omega

/-- The restriction operator meets the hypotheses of C37. -/
theorem restrict_opOK (h : LevelOK rs D lf lc rf rc ρ b B) (hr : (rs rf).rtype ≠ .curlOriented) {op : Oper α}
    {F : (Nat → Nat → α) → Nat → Nat → α} (ha : Agree (Function.update rs ρ (unsignedCopy (rs rf))) nc rf ρ rc b)
    (ht : IsTransfer op (Function.update rs ρ (unsignedCopy (rs rf))) rf ⟨.active, some rf, none, .none, nc⟩
      ⟨.vec μ, some ρ, none, .none, nc⟩ ⟨.active, some rc, some b, .interp, nc⟩ F) :
    OpOK op (levelMeaning D rf ρ B) := by
  have z := h.sizes ha
  have hne : op.ne = (D rf).ne := by rw [ht.ne, h.urf, h.fine.rep.1.ne]; simp
  have hQ : op.Q = (D rf).es := by rw [ht.Q, h.urf, h.fine.rep.1.es]
  constructor
  · intro i hi
    rw [ht.nin] at hi
    rcases (by omega : i = 0 ∨ i = 1) with rfl | rfl
    · unfold InOK
      rw [ht.inp0]
      refine ⟨⟨rf, lf, rfl, ?_, ?_⟩, ?_, ?_⟩
      · rw [ht.rstrs, h.urf, h.Drf]; exact h.fine
      · rw [h.Drf, hne]
      · show ((levelMeaning D rf ρ B).D rf).es = _
        rw [h.Drf, hQ]
      · show _ = ((levelMeaning D rf ρ B).D rf).nc
        rw [h.Drf, z.ncf]
    · unfold InOK
      rw [ht.inp1]
      refine ⟨⟨ρ, lf, rfl, ?_, ?_⟩, ?_, ?_⟩
      · rw [ht.rstrs, Function.update_self, LevelOK.Dρ]; exact made_copy h.fine hr
      · rw [LevelOK.Dρ, hne]; rfl
      · show ((levelMeaning D rf ρ B).D ρ).es = _
        rw [LevelOK.Dρ, hQ]; rfl
      · show _ = ((levelMeaning D rf ρ B).D ρ).nc
        rw [LevelOK.Dρ]; exact z.ncf.symm
  · intro o ho
    rw [ht.nout] at ho
    obtain rfl : o = 0 := by omega
    unfold OutOK
    rw [ht.out0]
    refine ⟨⟨rc, lc, rfl, ?_, ?_⟩, b, ⟨rfl, ?_, ?_, ?_, ?_⟩, h.mulT, ?_⟩
    · rw [ht.rstrs, h.urc, h.Drc]; exact h.coarse
    · rw [h.Drc, hne]; exact z.ne
    · show _ = ((levelMeaning D rf ρ B).D rc).es
      rw [h.Drc]; exact h.nodes
    · show _ = ((levelMeaning D rf ρ B).D rc).nc
      rw [h.Drc, z.ncc, z.ncb]
    · rw [hQ, z.bQ]
    · show _ = ((levelMeaning D rf ρ B).D rc).nc * b.qComp .interp
      rw [h.Drc, z.ncc, z.qc, Nat.mul_one]
    · rintro ⟨j, hj, _⟩; omega
  · intro i j hij hj hs
    rw [ht.nin] at hj
    obtain ⟨rfl, rfl⟩ : i = 0 ∧ j = 1 := by omega
    rw [ht.inp0, ht.inp1] at hs
    simp [OField.same] at hs
  · intro j o hjo ho
    rw [ht.nout] at ho; omega
  · intro hi
    rw [ht.isId] at hi; cases hi

/-- The prolongation operator meets the hypotheses of C37. -/
theorem prolong_opOK (h : LevelOK rs D lf lc rf rc ρ b B) (hr : (rs rf).rtype ≠ .curlOriented) {op : Oper α}
    {F : (Nat → Nat → α) → Nat → Nat → α} (ha : Agree (Function.update rs ρ (unsignedCopy (rs rf))) nc rf ρ rc b)
    (ht : IsTransfer op (Function.update rs ρ (unsignedCopy (rs rf))) rf ⟨.active, some rc, some b, .interp, nc⟩
      ⟨.vec μ, some ρ, none, .none, nc⟩ ⟨.active, some rf, none, .none, nc⟩ F) :
    OpOK op (levelMeaning D rf ρ B) := by
  have z := h.sizes ha
  have hne : op.ne = (D rf).ne := by rw [ht.ne, h.urf, h.fine.rep.1.ne]; simp
  have hQ : op.Q = (D rf).es := by rw [ht.Q, h.urf, h.fine.rep.1.es]
  constructor
  · intro i hi
    rw [ht.nin] at hi
    rcases (by omega : i = 0 ∨ i = 1) with rfl | rfl
    · unfold InOK
      rw [ht.inp0]
      refine ⟨⟨rc, lc, rfl, ?_, ?_⟩, b, ⟨rfl, ?_, ?_, ?_, ?_⟩, h.mul⟩
      · rw [ht.rstrs, h.urc, h.Drc]; exact h.coarse
      · rw [h.Drc, hne]; exact z.ne
      · show _ = ((levelMeaning D rf ρ B).D rc).es
        rw [h.Drc]; exact h.nodes
      · show _ = ((levelMeaning D rf ρ B).D rc).nc
        rw [h.Drc, z.ncc, z.ncb]
      · rw [hQ, z.bQ]
      · show _ = ((levelMeaning D rf ρ B).D rc).nc * b.qComp .interp
        rw [h.Drc, z.ncc, z.qc, Nat.mul_one]
    · unfold InOK
      rw [ht.inp1]
      refine ⟨⟨ρ, lf, rfl, ?_, ?_⟩, ?_, ?_⟩
      · rw [ht.rstrs, Function.update_self, LevelOK.Dρ]; exact made_copy h.fine hr
      · rw [LevelOK.Dρ, hne]; rfl
      · show ((levelMeaning D rf ρ B).D ρ).es = _
        rw [LevelOK.Dρ, hQ]; rfl
      · show _ = ((levelMeaning D rf ρ B).D ρ).nc
        rw [LevelOK.Dρ]; exact z.ncf.symm
  · intro o ho
    rw [ht.nout] at ho
    obtain rfl : o = 0 := by omega
    unfold OutOK
    rw [ht.out0]
    refine ⟨⟨rf, lf, rfl, ?_, ?_⟩, ?_, ?_⟩
    · rw [ht.rstrs, h.urf, h.Drf]; exact h.fine
    · rw [h.Drf, hne]
    · show ((levelMeaning D rf ρ B).D rf).es = _
      rw [h.Drf, hQ]
    · show _ = ((levelMeaning D rf ρ B).D rf).nc
      rw [h.Drf, z.ncf]
  · intro i j hij hj hs
    rw [ht.nin] at hj
    obtain ⟨rfl, rfl⟩ : i = 0 ∧ j = 1 := by omega
    rw [ht.inp0, ht.inp1] at hs
    simp [OField.same] at hs
  · intro j o hjo ho
    rw [ht.nout] at ho; omega
  · intro hi
    rw [ht.isId] at hi; cases hi

/-- What the prolongation operator does. -/
theorem prolong_action (h : LevelOK rs D lf lc rf rc ρ b B) {op : Oper α}
    (ha : Agree (Function.update rs ρ (unsignedCopy (rs rf))) nc rf ρ rc b)
    (ht : IsTransfer op (Function.update rs ρ (unsignedCopy (rs rf))) rf ⟨.active, some rc, some b, .interp, nc⟩
      ⟨.vec μ, some ρ, none, .none, nc⟩ ⟨.active, some rf, none, .none, nc⟩ scaleF) (L : Nat → Nat → α) (iv ov t : Nat) :
    (levelMeaning D rf ρ B).action op L (.vec iv) (.vec ov) ov t =
      spread (D rf) (fun e k n => interpE B (D rc) (L iv) e k n * L μ ((D rf).lidx e n k)) t := by
  have z := h.sizes ha
  have hQ : op.Q = (D rf).es := by rw [ht.Q, h.urf, h.fine.rep.1.es]
  unfold Meaning.action
  rw [ht.nout, sum_range_one, ht.out0]
  simp only [FVec.ptr, if_true]
  unfold Meaning.adds spread
  have hd : (levelMeaning D rf ρ B).dat (op.out 0) = D rf := by rw [ht.out0]; exact h.Drf
  simp only [hd]
  refine sum_congr rfl fun e _ => sum_congr rfl fun k hk => sum_congr rfl fun n hn => sum_congr rfl fun m _ => ?_
  rw [mem_range] at hk hn
  rw [z.ncf] at hk
  congr 2
  have hx : k * op.Q + n < op.Q * nc := by
    rw [hQ, Nat.mul_comm (D rf).es]
    calc k * (D rf).es + n < k * (D rf).es + (D rf).es := by omega
      _ = (k + 1) * (D rf).es := by ring
      _ ≤ nc * (D rf).es := Nat.mul_le_mul_right _ hk
  have hdiv : (k * op.Q + n) / op.Q = k := by rw [hQ]; exact div_enc hn
  have hmod : (k * op.Q + n) % op.Q = n := by rw [hQ]; exact mod_enc hn
  unfold Meaning.elemOut
  rw [ht.out0]
  simp only
  unfold Meaning.outArr
  rw [ht.isId, ht.f]
  simp only [scaleF, Bool.false_eq_true, if_false]
  unfold Meaning.inArr
  rw [ht.nin, ht.inp0, ht.inp1, if_pos ⟨by omega, hx⟩, if_pos ⟨by omega, hx⟩]
  congr 1
  · unfold Meaning.inVal interpE
    rw [ht.inp0]
    simp only [hdiv, hmod]
    have hd0 : (levelMeaning D rf ρ B).dat ⟨.active, some rc, some b, .interp, nc⟩ = D rc := h.Drc
    rw [hd0, z.ncc, Nat.div_eq_of_lt hk, Nat.mod_eq_of_lt hk, Nat.zero_mul, Nat.zero_add]
    rfl
  · unfold Meaning.inVal
    rw [ht.inp1]
    simp only [hdiv, hmod]
    have hd1 : (levelMeaning D rf ρ B).dat ⟨.vec μ, some ρ, none, .none, nc⟩ = (D rf).unsigned := LevelOK.Dρ
    rw [hd1]
    exact RData.unsigned_row _ _ hn

/-- What the restriction operator does. -/
theorem restrict_action (h : LevelOK rs D lf lc rf rc ρ b B) {op : Oper α}
    (ha : Agree (Function.update rs ρ (unsignedCopy (rs rf))) nc rf ρ rc b)
    (ht : IsTransfer op (Function.update rs ρ (unsignedCopy (rs rf))) rf ⟨.active, some rf, none, .none, nc⟩
      ⟨.vec μ, some ρ, none, .none, nc⟩ ⟨.active, some rc, some b, .interp, nc⟩ scaleF) (L : Nat → Nat → α) (iv ov t : Nat) :
    (levelMeaning D rf ρ B).action op L (.vec iv) (.vec ov) ov t =
      spread (D rc) (fun e k c => ∑ n ∈ range (D rf).es,
        B.val (n * (D rc).es + c) * ((D rf).row (L iv) e k n * L μ ((D rf).lidx e n k))) t := by
  have z := h.sizes ha
  have hQ : op.Q = (D rf).es := by rw [ht.Q, h.urf, h.fine.rep.1.es]
  unfold Meaning.action
  rw [ht.nout, sum_range_one, ht.out0]
  simp only [FVec.ptr, if_true]
  unfold Meaning.adds spread
  have hd : (levelMeaning D rf ρ B).dat (op.out 0) = D rc := by rw [ht.out0]; exact h.Drc
  simp only [hd]
  refine sum_congr rfl fun e _ => sum_congr rfl fun k hk => sum_congr rfl fun c hc => sum_congr rfl fun m _ => ?_
  rw [mem_range] at hk hc
  rw [z.ncc] at hk
  congr 2
  unfold Meaning.elemOut
  simp only [hd]
  rw [ht.out0]
  simp only [OField.qc]
  rw [z.qc, sum_range_one, hQ]
  refine sum_congr rfl fun n hn => ?_
  rw [mem_range] at hn
  rw [Nat.zero_mul, Nat.zero_mul, Nat.zero_add, Nat.zero_add]
  have hx : k * op.Q + n < op.Q * nc := by
    rw [hQ, Nat.mul_comm (D rf).es]
    calc k * (D rf).es + n < k * (D rf).es + (D rf).es := by omega
      _ = (k + 1) * (D rf).es := by ring
      _ ≤ nc * (D rf).es := Nat.mul_le_mul_right _ hk
  have hdiv : (k * op.Q + n) / op.Q = k := by rw [hQ]; exact div_enc hn
  have hmod : (k * op.Q + n) % op.Q = n := by rw [hQ]; exact mod_enc hn
  rw [← hQ]
  congr 1
  unfold Meaning.outArr
  rw [ht.isId, ht.f]
  simp only [scaleF, Bool.false_eq_true, if_false]
  unfold Meaning.inArr
  rw [ht.nin, ht.inp0, ht.inp1, if_pos ⟨by omega, hx⟩, if_pos ⟨by omega, hx⟩]
  congr 1
  · unfold Meaning.inVal
    rw [ht.inp0]
    simp only [hdiv, hmod]
    have hd0 : (levelMeaning D rf ρ B).dat ⟨.active, some rf, none, .none, nc⟩ = D rf := h.Drf
    rw [hd0]
    rfl
  · unfold Meaning.inVal
    rw [ht.inp1]
    simp only [hdiv, hmod]
    have hd1 : (levelMeaning D rf ρ B).dat ⟨.vec μ, some ρ, none, .none, nc⟩ = (D rf).unsigned := LevelOK.Dρ
    rw [hd1]
    exact RData.unsigned_row _ _ hn

/-- Duality of the two actions. -/
theorem transfer_adjoint (h : LevelOK rs D lf lc rf rc ρ b B) (z : Sizes D rf rc nc b) (u w m : Nat → α) :
    ∑ t ∈ range lf.toNat, w t * spread (D rf) (fun e k n => interpE B (D rc) u e k n * m ((D rf).lidx e n k)) t =
    ∑ s ∈ range lc.toNat, u s * spread (D rc) (fun e k c => ∑ n ∈ range (D rf).es,
      B.val (n * (D rc).es + c) * ((D rf).row w e k n * m ((D rf).lidx e n k))) s := by
  rw [spread_adjoint _ (made_rng h.fine), spread_adjoint _ (made_rng h.coarse), z.ne, z.ncc, z.ncf]
  refine sum_congr rfl fun e _ => sum_congr rfl fun k _ => ?_
  unfold interpE
  simp only [mul_sum, sum_mul]
  rw [sum_comm]
  refine sum_congr rfl fun c _ => sum_congr rfl fun n _ => ?_
  ring

/-! ## Taking the call apart -/

theorem loop_keeps {σ : Type _} {n : Nat} {body : Nat → σ → Res σ} {s s' : σ} (I : Nat → σ → Prop) (h0 : I 0 s)
    (hs : ∀ i < n, ∀ s s', I i s → body i s = .ok s' → I (i + 1) s') (e : loop n body s = .ok s') : I n s' := by
  induction n generalizing s' with
  | zero => cases e; exact h0
  | succ n ih =>
    rw [loop_succ] at e
    obtain ⟨s1, e1, e2⟩ := Res.bind_eq_ok.1 e
    exact hs n (by omega) s1 s' (ih (fun i hi => hs i (by omega)) e1) e2

/-- One round of the cloning. -/
theorem clone_step {rs : Nat → Rstr} {rc : Nat} {bc : Bas α} {F : Nat → Slot α} {i : Nat}
    {st st' : OpI α × Option (Option Nat)}
    (e : (match F i with
      | .set v => do
        let s ← runOn (cloneField rs rc bc v) st.1
        Res.ok (s, pickFine v st.2)
      | _ => .ub) = Res.ok st') :
    ∃ v s', F i = .set v ∧ cloneField rs rc bc v st.1 = .ok s' () ∧ st' = (s', pickFine v st.2) := by
  split at e
  · rename_i v hv
    obtain ⟨s1, e1, e2⟩ := Res.bind_eq_ok.1 e
    obtain ⟨a, e1⟩ := runOn_ok e1
    cases e2
    exact ⟨v, s1, hv, e1, rfl⟩
  · cases e

/-- Result of the picking of `rstr_fine`. -/
theorem cloneFields_pick {rs : Nat → Rstr} {rc : Nat} {bc : Bas α} {F : Nat → Slot α} {n : Nat}
    {st st' : OpI α × Option (Option Nat)} (e : cloneFields rs rc bc F n st = .ok st') {x : Option Nat}
    (h0 : ∀ y, st.2 = some y → y = x) (h : ∀ i < n, ∀ v, F i = .set v → v.vec = .active → v.rid = x) :
    ∀ y, st'.2 = some y → y = x := by
  unfold cloneFields at e
  refine loop_keeps (fun _ st => ∀ y, st.2 = some y → y = x) h0 ?_ e
  intro i hi s s' hI es y hy
  obtain ⟨v, s1, hv, _, rfl⟩ := clone_step es
  unfold pickFine at hy
  dsimp only at hy
  split at hy
  · rename_i z hz
    exact hI y (by rw [hz, hy])
  · split at hy
    · rename_i ha
      cases hy
      exact h i hi v hv ha
    · cases hy

/-- All active fields of an operator have restriction `rf`. -/
def ActiveRstr (fine : OpI α) (rf : Nat) : Prop :=
  (∀ i < fine.qf.inputs.length, ∀ v, fine.inF i = .set v → v.vec = .active → v.rid = some rf) ∧
  ∀ i < fine.qf.outputs.length, ∀ v, fine.outF i = .set v → v.vec = .active → v.rid = some rf

theorem cloneOper_pick {rs : Nat → Rstr} {rc rf : Nat} {bc : Bas α} {fine c : OpI α} {x : Option Nat}
    (e : cloneOper rs rc bc fine = .ok (c, some x)) (h : ActiveRstr fine rf) : x = some rf := by
  unfold cloneOper at e
  obtain ⟨f1, e1, e⟩ := Res.bind_eq_ok.1 e
  obtain ⟨st, e2, e3⟩ := Res.bind_eq_ok.1 e
  obtain ⟨_, e1⟩ := runOn_ok e1
  have hf : f1.inF = fine.inF ∧ f1.outF = fine.outF ∧ f1.qf.inputs = fine.qf.inputs ∧ f1.qf.outputs = fine.qf.outputs := by
    rcases (checkReady_ok e1).2 with rfl | rfl <;> exact ⟨rfl, rfl, rfl, rfl⟩
  rw [hf.1, hf.2.2.1] at e2
  rw [hf.2.1, hf.2.2.2] at e3
  exact cloneFields_pick e3 (cloneFields_pick e2 (x := some rf) (fun y hy => by cases hy) h.1) h.2 x rfl

/-- The parts of a successful call. -/
theorem multigrid_inv {rs : Nat → Rstr} {eps : α} {cmp : Bool} {fine : OpI α} {pm : Option (Buf α)} {rc ρ μ : Nat} {bc : Bas α}
    {bcf : Option (Bas α)} {wantR wantP : Bool} {lev : Level α}
    (e : multigridLevel rs eps cmp fine pm rc bc bcf ρ μ wantR wantP = .ok lev) :
    ∃ c x, cmp = false ∧ cloneOper rs rc bc fine = .ok (c, x) ∧ checkReady c = .ok lev.coarse () ∧
      ((¬ (wantR = true ∨ wantP = true) ∧ lev.restrict = none ∧ lev.prolong = none) ∨
       ((wantR = true ∨ wantP = true) ∧ ∃ r p m b R P, x = some (some r) ∧ (rs r).rtype ≠ .curlOriented ∧ pm = some p ∧
          multVec eps (rs r) p = .ok m ∧ bcf = some b ∧ lev = ⟨lev.coarse, R, P, Function.update rs ρ (unsignedCopy (rs r)), some m⟩ ∧
          (R = if wantR = true then R else none) ∧ (P = if wantP = true then P else none) ∧
          (wantR = true → ∃ s, R = some s ∧ restrictOper lev.rstrs bc.nc r ρ rc μ b = .ok s) ∧
          (wantP = true → ∃ s, P = some s ∧ prolongOper lev.rstrs bc.nc r ρ rc μ b = .ok s))) := by
  unfold multigridLevel at e
  obtain ⟨_, h1, e⟩ := Res.bind_eq_ok.1 e
  have hc : cmp = false := by
    by_contra hh
    rw [Res.check_false hh] at h1; cases h1
  obtain ⟨⟨c, x⟩, h2, e⟩ := Res.bind_eq_ok.1 e
  dsimp only at e
  refine ⟨c, x, hc, h2, ?_⟩
  split at e
  · rename_i hw
    obtain ⟨⟨r, m⟩, h3, e⟩ := Res.bind_eq_ok.1 e
    dsimp only at e
    obtain ⟨⟨R, P⟩, h4, e⟩ := Res.bind_eq_ok.1 e
    dsimp only at e
    obtain ⟨c', h5, e⟩ := Res.bind_eq_ok.1 e
    obtain ⟨_, h5⟩ := runOn_ok h5
    cases e
    refine ⟨h5, Or.inr ⟨hw, ?_⟩⟩
    unfold levelMult at h3
    split at h3
    · cases h3
    · cases h3
    · rename_i r'
      obtain ⟨_, k1, h3⟩ := Res.bind_eq_ok.1 h3
      have hcurl : (rs r').rtype ≠ .curlOriented := by
        intro hh
        rw [Res.check_false (by simpa using hh)] at k1; cases k1
      split at h3
      · cases h3
      · obtain ⟨m', k2, h3⟩ := Res.bind_eq_ok.1 h3
        cases h3
        unfold levelOpers at h4
        split at h4
        · cases h4
        · rename_i b
          obtain ⟨R', k3, h4⟩ := Res.bind_eq_ok.1 h4
          obtain ⟨P', k4, h4⟩ := Res.bind_eq_ok.1 h4
          cases h4
          refine ⟨r, _, m, _, R, P, rfl, hcurl, rfl, k2, rfl, rfl, ?_, ?_, ?_, ?_⟩
          · cases wantR
            · simp only [Bool.false_eq_true, if_false] at k3; cases k3; rfl
            · rfl
          · cases wantP
            · simp only [Bool.false_eq_true, if_false] at k4; cases k4; rfl
            · rfl
          · rintro rfl
            simp only [if_true] at k3
            obtain ⟨s, k6, k5⟩ := Res.bind_eq_ok.1 k3
            cases k5
            exact ⟨s, rfl, k6⟩
          · rintro rfl
            simp only [if_true] at k4
            obtain ⟨s, k6, k5⟩ := Res.bind_eq_ok.1 k4
            cases k5
            exact ⟨s, rfl, k6⟩
  · rename_i hw
    obtain ⟨c', h5, e⟩ := Res.bind_eq_ok.1 e
    obtain ⟨_, h5⟩ := runOn_ok h5
    cases e
    exact ⟨h5, Or.inl ⟨hw, rfl, rfl⟩⟩

/-! ## C46: transfer operators -/

/-- What is assumed about the call: it succeeds, and the objects given to it are as `LevelOK` says. -/
structure Created (rs : Nat → Rstr) (D : Nat → RData α) (lf lc : Int) (rf rc ρ μ : Nat) (eps : α) (fine : OpI α) (pm : Buf α)
    (bc b : Bas α) (B : Buf α) (wantR wantP : Bool) (lev : Level α) : Prop where
  ok : multigridLevel rs eps false fine (some pm) rc bc (some b) ρ μ wantR wantP = .ok lev
  level : LevelOK rs D lf lc rf rc ρ b B
  active : ActiveRstr fine rf

variable {eps : α} {fine : OpI α} {pm : Buf α} {bc : Bas α} {wantR wantP : Bool} {lev : Level α}

theorem Created.parts (h : Created rs D lf lc rf rc ρ μ eps fine pm bc b B wantR wantP lev)
    (hw : wantR = true ∨ wantP = true) :
    (rs rf).rtype ≠ .curlOriented ∧ lev.rstrs = Function.update rs ρ (unsignedCopy (rs rf)) ∧
    (∃ m, lev.mult = some m ∧ multVec eps (rs rf) pm = .ok m) ∧
    (∀ s, lev.restrict = some s → wantR = true ∧ restrictOper lev.rstrs bc.nc rf ρ rc μ b = .ok s) ∧
    (∀ s, lev.prolong = some s → wantP = true ∧ prolongOper lev.rstrs bc.nc rf ρ rc μ b = .ok s) ∧
    (wantR = true → ∃ s, lev.restrict = some s) ∧ (wantP = true → ∃ s, lev.prolong = some s) := by
  obtain ⟨c, x, -, h2, h3, h4⟩ := multigrid_inv h.ok
  rcases h4 with ⟨h4, _⟩ | ⟨-, r, p, m, b', R, P, rfl, k1, k2, k3, k4, k5, k6, k7, k8, k9⟩
  · exact absurd hw h4
  have hr : r = rf := by
    have := cloneOper_pick h2 h.active
    cases this; rfl
  subst hr
  cases k2
  cases k4
  have e1 : lev.restrict = R := by rw [k5]
  have e2 : lev.prolong = P := by rw [k5]
  have e3 : lev.rstrs = Function.update rs ρ (unsignedCopy (rs r)) := by rw [k5]
  have e4 : lev.mult = some m := by rw [k5]
  refine ⟨k1, e3, ⟨m, e4, k3⟩, fun s hs => ?_, fun s hs => ?_, fun hR => ?_, fun hP => ?_⟩
  · have hR : wantR = true := by
      by_contra hh
      rw [e1] at hs
      rw [if_neg hh, hs] at k6; cases k6
    obtain ⟨s', a1, a2⟩ := k8 hR
    rw [e1, a1] at hs; cases hs
    exact ⟨hR, a2⟩
  · have hP : wantP = true := by
      by_contra hh
      rw [e2] at hs
      rw [if_neg hh, hs] at k7; cases k7
    obtain ⟨s', a1, a2⟩ := k9 hP
    rw [e2, a1] at hs; cases hs
    exact ⟨hP, a2⟩
  · obtain ⟨s, a, _⟩ := k8 hR
    exact ⟨s, e1.trans a⟩
  · obtain ⟨s, a, _⟩ := k9 hP
    exact ⟨s, e2.trans a⟩

/-- The restriction operator as the backend sees it. -/
theorem Created.restrict (h : Created rs D lf lc rf rc ρ μ eps fine pm bc b B wantR wantP lev) {R : OpI α}
    (hR : lev.restrict = some R) : (rs rf).rtype ≠ .curlOriented ∧ lev.rstrs = Function.update rs ρ (unsignedCopy (rs rf)) ∧
    Agree lev.rstrs bc.nc rf ρ rc b ∧
    IsTransfer (R.oper lev.rstrs false scaleF) lev.rstrs rf ⟨.active, some rf, none, .none, bc.nc⟩
      ⟨.vec μ, some ρ, none, .none, bc.nc⟩ ⟨.active, some rc, some b, .interp, bc.nc⟩ scaleF := by
  by_cases hw : wantR = true ∨ wantP = true
  · obtain ⟨a1, a2, -, a4, -⟩ := h.parts hw
    have hes : (lev.rstrs rf).elemSize = (D rf).es := by rw [a2, h.level.urf, h.level.fine.rep.1.es]
    obtain ⟨b1, b2⟩ := restrictOper_ok (a4 R hR).2 (by rw [hes]; exact h.level.pos.2) scaleF
    exact ⟨a1, a2, b1, b2⟩
  · obtain ⟨c, x, -, h2, h3, h4⟩ := multigrid_inv h.ok
    rcases h4 with ⟨_, h4, _⟩ | ⟨h4, _⟩
    · rw [h4] at hR; cases hR
    · exact absurd h4 hw

/-- The prolongation operator as the backend sees it. -/
theorem Created.prolong (h : Created rs D lf lc rf rc ρ μ eps fine pm bc b B wantR wantP lev) {P : OpI α}
    (hP : lev.prolong = some P) : (rs rf).rtype ≠ .curlOriented ∧ lev.rstrs = Function.update rs ρ (unsignedCopy (rs rf)) ∧
    Agree lev.rstrs bc.nc rf ρ rc b ∧
    IsTransfer (P.oper lev.rstrs false scaleF) lev.rstrs rf ⟨.active, some rc, some b, .interp, bc.nc⟩
      ⟨.vec μ, some ρ, none, .none, bc.nc⟩ ⟨.active, some rf, none, .none, bc.nc⟩ scaleF := by
  by_cases hw : wantR = true ∨ wantP = true
  · obtain ⟨a1, a2, -, -, a5, -⟩ := h.parts hw
    obtain ⟨b1, b2⟩ := prolongOper_ok (a5 P hP).2 h.level.pos.1 scaleF
    exact ⟨a1, a2, b1, b2⟩
  · obtain ⟨c, x, -, h2, h3, h4⟩ := multigrid_inv h.ok
    rcases h4 with ⟨_, _, h4⟩ | ⟨h4, _⟩
    · rw [h4] at hP; cases hP
    · exact absurd h4 hw

/-- **C46.** The operators requested, and only those, are created, and they meet the hypotheses of the theorems on
application (C37, C39, C40). The multiplicities are those of the fine restriction, times the vector given; the vector
holds their reciprocals. -/
theorem C46_created (h : Created rs D lf lc rf rc ρ μ eps fine pm bc b B wantR wantP lev)
    (hw : wantR = true ∨ wantP = true) :
    (lev.restrict.isSome = wantR ∧ lev.prolong.isSome = wantP) ∧
    (∀ R, lev.restrict = some R → OpOK (R.oper lev.rstrs false scaleF) (levelMeaning D rf ρ B)) ∧
    (∀ P, lev.prolong = some P → OpOK (P.oper lev.rstrs false scaleF) (levelMeaning D rf ρ B)) ∧
    ∃ m, lev.mult = some m ∧ m.len = lf.toNat ∧ ∀ t < lf.toNat, m.val t = recipOf eps ((D rf).count t * pm.val t) := by
  obtain ⟨a1, a2, ⟨m, a3, a3'⟩, a4, a5, a6, a7⟩ := h.parts hw
  refine ⟨⟨?_, ?_⟩, fun R hR => ?_, fun P hP => ?_, m, a3, ?_⟩
  · cases hR : lev.restrict with
    | none =>
      cases wantR
      · rfl
      · obtain ⟨s, hs⟩ := a6 rfl; rw [hs] at hR; cases hR
    | some s => exact (a4 s hR).1.symm
  · cases hP : lev.prolong with
    | none =>
      cases wantP
      · rfl
      · obtain ⟨s, hs⟩ := a7 rfl; rw [hs] at hP; cases hP
    | some s => exact (a5 s hP).1.symm
  · obtain ⟨b1, b2, b3, b4⟩ := h.restrict hR
    rw [b2] at b3 b4 ⊢
    exact restrict_opOK h.level b1 b3 b4
  · obtain ⟨b1, b2, b3, b4⟩ := h.prolong hP
    rw [b2] at b3 b4 ⊢
    exact prolong_opOK h.level b1 b3 b4
  · exact (multVec_ok h.level.fine a1 a3').2

/-- Contents of the active input as a unit vector. -/
theorem unit_sum {n : Nat} (g : Nat → α) {s : Nat} (hs : s < n) :
    ∑ x ∈ range n, g x * (if x = s then 1 else 0) = g s := by
  simp [sum_ite_eq', hs]

theorem spread_out {D : RData α} {L : Nat} (hL : ∀ e < D.ne, ∀ m < D.es, ∀ k < D.nc, D.lidx e m k < L)
    (g : Nat → Nat → Nat → α) {t : Nat} (ht : L ≤ t) : spread D g t = 0 := by
  unfold spread
  refine sum_eq_zero fun e he => sum_eq_zero fun k hk => sum_eq_zero fun n _ => sum_eq_zero fun m hm => ?_
  rw [mem_range] at he hk hm
  rw [if_neg]
  have := hL e he m hm k hk
  omega

/-- **C46.** The restriction operator is the transpose of the prolongation operator: for any contents of the vectors, one
matrix describes the prolongation and its transpose the restriction. -/
theorem C46_transpose (h : Created rs D lf lc rf rc ρ μ eps fine pm bc b B wantR wantP lev) {R P : OpI α}
    (hR : lev.restrict = some R) (hP : lev.prolong = some P) (L : Nat → Nat → α) :
    ∃ A : Nat → Nat → α,
      IsMatrix (P.oper lev.rstrs false scaleF) (levelMeaning D rf ρ B) L lc.toNat A ∧
      IsMatrix (R.oper lev.rstrs false scaleF) (levelMeaning D rf ρ B) L lf.toNat (fun s t => A t s) := by
  obtain ⟨a1, a2, a3, a4⟩ := h.restrict hR
  obtain ⟨-, -, -, b4⟩ := h.prolong hP
  have z := h.level.sizes (by rw [a2] at a3; exact a3)
  have hadj := transfer_adjoint h.level z (m := L μ)
  set p : (Nat → α) → Nat → α := fun u => spread (D rf) (fun e k n => interpE B (D rc) u e k n * L μ ((D rf).lidx e n k))
    with hp
  set r : (Nat → α) → Nat → α := fun w => spread (D rc) (fun e k c => ∑ n ∈ range (D rf).es,
      B.val (n * (D rc).es + c) * ((D rf).row w e k n * L μ ((D rf).lidx e n k))) with hr
  have hadj : ∀ u w, ∑ t ∈ range lf.toNat, w t * p u t = ∑ s ∈ range lc.toNat, u s * r w s := fun u w => hadj u w
  refine ⟨fun t s => r (fun x => if x = t then 1 else 0) s, ?_, ?_⟩
  · intro iv ov hiv _ u t
    have hne : iv ≠ μ := by
      intro hh
      refine hiv 1 (by rw [b4.nin]; omega) ?_
      rw [b4.inp1, hh]
    rw [a2] at a3 b4 ⊢
    rw [prolong_action h.level a3 b4, Function.update_self, Function.update_of_ne (Ne.symm hne)]
    show p u t = _
    by_cases ht : t < lf.toNat
    · have := hadj u (fun x => if x = t then 1 else 0)
      rw [show (∑ x ∈ range lf.toNat, (if x = t then (1 : α) else 0) * p u x) = p u t by
        simp only [mul_comm _ (p u _)]; exact unit_sum (p u) ht] at this
      rw [this]
      exact sum_congr rfl fun s _ => mul_comm _ _
    · rw [show p u t = 0 from spread_out (made_rng h.level.fine) _ (by omega)]
      symm
      refine sum_eq_zero fun s hs => ?_
      have : r (fun x => if x = t then 1 else 0) s = 0 := by
        rw [hr]
        unfold spread
        refine sum_eq_zero fun e he => sum_eq_zero fun k hk => sum_eq_zero fun n _ => sum_eq_zero fun m hm => ?_
        rw [mem_range] at he hk
        split
        · dsimp only
          rw [sum_eq_zero, mul_zero]
          intro q hq
          rw [mem_range] at hq
          rw [show (D rf).row (fun x => if x = t then (1 : α) else 0) e k q = 0 from ?_, zero_mul, mul_zero]
          unfold RData.row
          refine sum_eq_zero fun m hm => ?_
          rw [mem_range] at hm
          have := made_rng h.level.fine e (by rw [← z.ne]; exact he) m hm k (by rw [z.ncf, ← z.ncc]; exact hk)
          dsimp only
          rw [if_neg (by omega), mul_zero]
        · rfl
      dsimp only
      rw [this, zero_mul]
  · intro iv ov hiv _ w s
    have hne : iv ≠ μ := by
      intro hh
      refine hiv 1 (by rw [a4.nin]; omega) ?_
      rw [a4.inp1, hh]
    rw [a2] at a3 a4 ⊢
    rw [restrict_action h.level a3 a4, Function.update_self, Function.update_of_ne (Ne.symm hne)]
    show r w s = _
    have hlin : ∀ t < lf.toNat, s < lc.toNat →
        p (fun x => if x = s then 1 else 0) t = r (fun x => if x = t then 1 else 0) s := by
      intro t ht hs
      have := hadj (fun x => if x = s then 1 else 0) (fun x => if x = t then 1 else 0)
      rw [show (∑ x ∈ range lf.toNat, (if x = t then (1 : α) else 0) * p (fun x => if x = s then 1 else 0) x) =
          p (fun x => if x = s then 1 else 0) t by
        simp only [mul_comm _ (p _ _)]; exact unit_sum _ ht,
        show (∑ x ∈ range lc.toNat, (if x = s then (1 : α) else 0) * r (fun x => if x = t then 1 else 0) x) =
          r (fun x => if x = t then 1 else 0) s by
        simp only [mul_comm _ (r _ _)]; exact unit_sum _ hs] at this
      exact this
    by_cases hs : s < lc.toNat
    · have := hadj (fun x => if x = s then 1 else 0) w
      rw [show (∑ x ∈ range lc.toNat, (if x = s then (1 : α) else 0) * r w x) = r w s by
        simp only [mul_comm _ (r _ _)]; exact unit_sum _ hs] at this
      rw [← this]
      refine sum_congr rfl fun t ht => ?_
      rw [mem_range] at ht
      rw [hlin t ht hs]
      exact mul_comm _ _
    · have hz : ∀ w, r w s = 0 := fun w => spread_out (made_rng h.level.coarse) _ (by omega)
      rw [hz]
      simp only [hz, zero_mul, sum_const_zero]

end

end Operator
end Verif
