import Verif.Basis.Create

/-!
# From the strategies to `CeedBasisApply` (helper lemmas)
-/

namespace Verif
namespace Basis

open Finset
open Restriction (TMode)
variable {α : Type} [CommRing α] {b : Bas α}

theorem tensorOK_of {i1 g1 w : Buf α} (h : TensorBasis b i1 g1 w) :
    TensorOK b ∧ (∀ q p, b.I1 q p = i1.val (q * b.P1 + p)) ∧ (∀ q p, b.G1 q p = g1.val (q * b.P1 + p)) ∧
      ∀ j, b.qWeight.val j = w.val j := by
  obtain ⟨near, collo, dim, nc, P1, Q1, h, h1, h2⟩ := h
  have hT := create_ok h h1 h2
  unfold createTensorH1 at h
  simp only [Res.bind_eq_ok, Res.check_eq_ok] at h
  obtain ⟨_, h1, _, h2, _, h3, _, h4, w', hw, i1', hi, g1', hg, ci, hci, cg, hcg, h⟩ := h
  obtain ⟨_, rfl⟩ := Restriction.copyIn_ok hw
  obtain ⟨_, rfl⟩ := Restriction.copyIn_ok hi
  obtain ⟨_, rfl⟩ := Restriction.copyIn_ok hg
  injection h with h
  subst h
  exact ⟨hT, fun _ _ => rfl, fun _ _ => rfl, fun _ => rfl⟩

theorem apply_nt {junk : Nat → Nat → α} {ne : Nat} {em : EMode} {u v : Buf α} (hem : em ≠ .weight)
    (hu : ne * b.nc * b.P ≤ u.len) (hv : ne * b.Q * b.nc * b.qComp em ≤ v.len) :
    apply b junk ne .noTranspose em (some u) v = applyCore b junk false ne .noTranspose em (some u) v := by
  unfold apply checkDims
  rw [Res.check_true]
  · rfl
  · cases em <;> simp_all

omit [CommRing α] in
theorem check_t {ne : Nat} {em : EMode} {u v : Buf α} (hem : em ≠ .weight)
    (hu : ne * b.nc * b.Q * b.qComp em ≤ u.len) (hv : ne * b.nc * b.P ≤ v.len) :
    checkDims b ne .transpose em (some u) v = .ok () := by
  unfold checkDims
  rw [Res.check_true]
  cases em <;> simp_all

theorem apply_t {junk : Nat → Nat → α} {ne : Nat} {em : EMode} {u v : Buf α} (hem : em ≠ .weight)
    (hu : ne * b.nc * b.Q * b.qComp em ≤ u.len) (hv : ne * b.nc * b.P ≤ v.len) :
    ∃ z : Buf α, z.len = v.len ∧ (∀ x < v.len, z.val x = 0) ∧
      apply b junk ne .transpose em (some u) v = (do
        if b.isTensor then
          match em with
          | .interp => tensorInterp b junk true ne .transpose u z
          | .grad => tensorGrad b junk false true ne .transpose u z
          | _ => .err .backend
        else
          let qc := b.qComp em
          match em with
          | .interp => do
            let m ← getInterp b
            let m ← deref m
            contractStrided b.nc b.P ne qc b.Q m .transpose true u z
          | .grad => do
            let m ← getGrad b
            let m ← deref m
            contractStrided b.nc b.P ne qc b.Q m .transpose true u z
          | .div => do
            let m ← deref b.div
            contractStrided b.nc b.P ne qc b.Q m .transpose true u z
          | .curl => do
            let m ← deref b.curl
            contractStrided b.nc b.P ne qc b.Q m .transpose true u z
          | _ => .err .backend) := by
  obtain ⟨z, e, l, a⟩ := fill_zero v
  refine ⟨z, l, a, ?_⟩
  unfold apply
  rw [check_t hem hu hv, Res.bind_ok]
  unfold applyCore
  rw [Res.check_true (by simp)]
  simp only [Res.bind_ok, e, and_self, if_true, decide_true, Bool.or_true, Option.getD_some]
  cases em <;> simp_all

theorem applyAdd_t {junk : Nat → Nat → α} {ne : Nat} {em : EMode} {u v : Buf α} (hem : em ≠ .weight)
    (hu : ne * b.nc * b.Q * b.qComp em ≤ u.len) (hv : ne * b.nc * b.P ≤ v.len) :
      applyAdd b junk ne .transpose em (some u) v = (do
        if b.isTensor then
          match em with
          | .interp => tensorInterp b junk true ne .transpose u v
          | .grad => tensorGrad b junk true true ne .transpose u v
          | _ => .err .backend
        else
          let qc := b.qComp em
          match em with
          | .interp => do
            let m ← getInterp b
            let m ← deref m
            contractStrided b.nc b.P ne qc b.Q m .transpose true u v
          | .grad => do
            let m ← getGrad b
            let m ← deref m
            contractStrided b.nc b.P ne qc b.Q m .transpose true u v
          | .div => do
            let m ← deref b.div
            contractStrided b.nc b.P ne qc b.Q m .transpose true u v
          | .curl => do
            let m ← deref b.curl
            contractStrided b.nc b.P ne qc b.Q m .transpose true u v
          | _ => .err .backend) := by
  unfold applyAdd
  rw [Res.check_true rfl, Res.bind_ok, check_t hem hu hv, Res.bind_ok]
  unfold applyCore
  rw [Res.check_true (by simp)]
  simp only [Res.bind_ok, and_false, Bool.true_or, if_false, Option.getD_some, Bool.true_eq_false]
  cases em <;> simp_all

/-! ## Tensor bases -/

theorem TensorOK.qInterp (hb : TensorOK b) : b.qComp .interp = 1 := by simp [Bas.qComp, hb.h1]

theorem TensorOK.mulBy_interp (hb : TensorOK b) {m : Buf α} (hm : ∀ q < b.Q, ∀ n < b.P, m.val (q * b.P + n) = b.KI q n) :
    MulBy b .interp m := by
  intro junk ne u v hu hv
  have hv' : ne * b.nc * b.Q ≤ v.len := by
    rw [hb.qInterp, mul_one] at hv
    rwa [show ne * b.nc * b.Q = ne * b.Q * b.nc by ring]
  rw [apply_nt (by simp) hu hv]
  unfold applyCore
  rw [Res.check_true (by simp)]
  simp only [Res.bind_ok, hb.tensor, if_true, reduceCtorEq, false_and, if_false, decide_false, Bool.or_false,
    Option.getD_some]
  rw [hb.interp_nt (fun _ => rfl) hu hv']
  refine ⟨_, rfl, rfl, ?_, ?_⟩
  · intro c hc k hk q hq e he
    rw [hb.qInterp] at hc
    obtain rfl : c = 0 := by omega
    have hx : quadPos b.nc b.Q ne 0 k q e = (k * b.Q + q) * ne + e := by unfold quadPos; ring
    have hlt := enc_lt (enc_lt hk hq) he
    simp only [contrOut, hx, Nat.zero_le, true_and, Nat.zero_add, if_pos hlt, Bool.false_eq_true, if_false, zero_add,
      Nat.sub_zero]
    rw [contr_enc _ _ hq he]
    unfold rowTimes
    refine Finset.sum_congr rfl (fun n hn => ?_)
    rw [Nat.zero_mul, Nat.zero_add, hm q hq n (mem_range.1 hn)]
    rfl
  · intro x hx
    rw [hb.qInterp, one_mul] at hx
    simp only [contrOut, Nat.zero_add]
    rw [if_neg (by omega)]

theorem TensorOK.mulByT_interp (hb : TensorOK b) {m : Buf α}
    (hm : ∀ q < b.Q, ∀ n < b.P, m.val (q * b.P + n) = b.KI q n) : MulByT b .interp m := by
  intro junk ne w v hw hv
  have hw' : ne * b.nc * b.Q ≤ w.len := by rwa [hb.qInterp, mul_one] at hw
  obtain ⟨z, lz, az, e⟩ := apply_t (junk := junk) (em := .interp) (by simp) hw hv
  rw [e]
  simp only [hb.tensor, if_true]
  have eP : b.nc * b.P * ne = ne * b.nc * b.P := by ring
  have hcol : ∀ k, ∀ n < b.P, ∀ e < ne, contr b.Q ne b.P (fun n q => b.KI q n) w.val (nodePos b.P ne k n e) =
      colTimes b (b.qComp .interp) ne m w k n e := by
    intro k n hn e he
    unfold nodePos colTimes
    rw [contr_enc _ _ hn he, hb.qInterp, sum_range_one]
    refine Finset.sum_congr rfl (fun q hq => ?_)
    rw [Nat.zero_mul, Nat.zero_add, hm q (mem_range.1 hq) n hn]
    unfold quadPos
    rw [Nat.zero_mul, Nat.zero_add]
  have hval : ∀ (a : Bool), ∃ v', Res.ok (contrOut b.nc b.Q ne b.P (fun n q => b.KI q n) a w.val z 0) = .ok v' ∧
      v'.len = v.len ∧ (∀ k < b.nc, ∀ n < b.P, ∀ e < ne, v'.val (nodePos b.P ne k n e) =
        colTimes b (b.qComp .interp) ne m w k n e) ∧
      ∀ x, b.nc * b.P * ne ≤ x → x < v.len → v'.val x = 0 := by
    intro a
    refine ⟨_, rfl, lz, ?_, ?_⟩
    · intro k hk n hn e he
      have hlt : nodePos b.P ne k n e < b.nc * b.P * ne := enc_lt (enc_lt hk hn) he
      simp only [contrOut, Nat.zero_le, true_and, Nat.zero_add, if_pos hlt, Nat.sub_zero]
      rw [hcol k n hn e he, az _ (by omega)]
      simp
    · intro x hx hx2
      simp only [contrOut, Nat.zero_add]
      rw [if_neg (by omega), az _ hx2]
  by_cases hc : b.colloInterp = true
  · have : tensorInterp b junk true ne .transpose w z = tensorInterp b junk false ne .transpose w z := by
      unfold tensorInterp; rw [if_pos hc, if_pos hc]
    rw [this, hb.interp_t (fun _ => rfl) hw' (by rw [lz]; exact hv)]
    exact hval false
  · rw [hb.interp_t (fun h => absurd h hc) hw' (by rw [lz]; exact hv)]
    exact hval true

theorem TensorOK.addByT_interp (hb : TensorOK b) (hc : b.colloInterp = false) {m : Buf α}
    (hm : ∀ q < b.Q, ∀ n < b.P, m.val (q * b.P + n) = b.KI q n) : AddByT b .interp m := by
  intro junk ne w v hw hv
  have hw' : ne * b.nc * b.Q ≤ w.len := by rwa [hb.qInterp, mul_one] at hw
  rw [applyAdd_t (by simp) hw hv]
  simp only [hb.tensor, if_true]
  rw [hb.interp_t (fun h => by rw [hc] at h; cases h) hw' hv]
  refine ⟨_, rfl, rfl, ?_, ?_⟩
  · intro k hk n hn e he
    have hlt : nodePos b.P ne k n e < b.nc * b.P * ne := enc_lt (enc_lt hk hn) he
    simp only [contrOut, Nat.zero_le, true_and, Nat.zero_add, if_pos hlt, Nat.sub_zero, if_true]
    congr 1
    unfold nodePos colTimes
    rw [contr_enc _ _ hn he, hb.qInterp, sum_range_one]
    refine Finset.sum_congr rfl (fun q hq => ?_)
    rw [Nat.zero_mul, Nat.zero_add, hm q (mem_range.1 hq) n hn]
    unfold quadPos
    rw [Nat.zero_mul, Nat.zero_add]
  · intro x hx
    simp only [contrOut, Nat.zero_add]
    rw [if_neg (by omega)]

theorem TensorOK.mulBy_grad (hb : TensorOK b) {m : Buf α}
    (hm : ∀ c < b.dim, ∀ q < b.Q, ∀ n < b.P, m.val ((c * b.Q + q) * b.P + n) = b.KG c q n) : MulBy b .grad m := by
  intro junk ne u v hu hv
  rw [apply_nt (by simp) hu hv]
  unfold applyCore
  rw [Res.check_true (by simp)]
  simp only [Res.bind_ok, hb.tensor, if_true, reduceCtorEq, false_and, if_false, decide_false, Bool.or_false,
    Option.getD_some]
  obtain ⟨v', e, l, a, c⟩ := hb.grad_nt (junk := junk) hu hv
  refine ⟨v', e, l, ?_, c⟩
  intro c hc k hk q hq e he
  rw [a c hc k hk q hq e he]
  unfold rowTimes
  exact Finset.sum_congr rfl (fun n hn => by rw [hm c hc q hq n (mem_range.1 hn)])

theorem TensorOK.cols_grad {m w : Buf α} {ne : Nat}
    (hm : ∀ c < b.dim, ∀ q < b.Q, ∀ n < b.P, m.val ((c * b.Q + q) * b.P + n) = b.KG c q n) {k n e : Nat} (hn : n < b.P)
    (he : e < ne) :
    ∑ c ∈ range b.dim, contr b.Q ne b.P (fun n q => b.KG c q n) (fun i => w.val (c * (b.nc * b.Q * ne) + i))
      (nodePos b.P ne k n e) = colTimes b b.dim ne m w k n e := by
  unfold colTimes
  rw [← cols_eq m.val w.val hn he]
  refine Finset.sum_congr rfl (fun c hc => ?_)
  unfold nodePos
  exact contr_congr hn he (fun q hq => by rw [hm c (mem_range.1 hc) q hq n hn])

theorem TensorOK.mulByT_grad (hb : TensorOK b) {m : Buf α}
    (hm : ∀ c < b.dim, ∀ q < b.Q, ∀ n < b.P, m.val ((c * b.Q + q) * b.P + n) = b.KG c q n) : MulByT b .grad m := by
  intro junk ne w v hw hv
  obtain ⟨z, lz, az, e⟩ := apply_t (junk := junk) (em := .grad) (by simp) hw hv
  rw [e]
  simp only [hb.tensor, if_true]
  rw [hb.grad_t hw (by rw [lz]; exact hv)]
  have eP : b.nc * b.P * ne = ne * b.nc * b.P := by ring
  refine ⟨_, rfl, lz, ?_, ?_⟩
  · intro k hk n hn e he
    have hlt : nodePos b.P ne k n e < b.nc * b.P * ne := enc_lt (enc_lt hk hn) he
    simp only [if_pos hlt]
    rw [TensorOK.cols_grad hm hn he, az _ (by omega), ite_self, zero_add]
    rfl
  · intro x hx hx2
    simp only
    rw [if_neg (by omega), az _ hx2]

theorem TensorOK.addByT_grad (hb : TensorOK b) (hc : b.colloInterp = false) {m : Buf α}
    (hm : ∀ c < b.dim, ∀ q < b.Q, ∀ n < b.P, m.val ((c * b.Q + q) * b.P + n) = b.KG c q n) : AddByT b .grad m := by
  intro junk ne w v hw hv
  rw [applyAdd_t (by simp) hw hv]
  simp only [hb.tensor, if_true]
  rw [hb.grad_t hw hv]
  refine ⟨_, rfl, rfl, ?_, ?_⟩
  · intro k hk n hn e he
    have hlt : nodePos b.P ne k n e < b.nc * b.P * ne := enc_lt (enc_lt hk hn) he
    simp only [if_pos hlt, hc, Bool.false_eq_true, if_false]
    rw [TensorOK.cols_grad hm hn he]
    rfl
  · intro x hx
    simp only
    rw [if_neg (by omega)]

/-! ## Non-tensor bases -/

/-- In mode `em`, `CeedBasisApply` on the non-tensor basis `b` uses the matrix `m`. -/
def UsesMat (b : Bas α) (em : EMode) (m : Buf α) : Prop :=
  b.isTensor = false ∧ b.qComp em * b.Q * b.P ≤ m.len ∧
    ((em = .interp ∧ b.interp = some m) ∨ (em = .grad ∧ b.grad = some m) ∨ (em = .div ∧ b.div = some m) ∨
      (em = .curl ∧ b.curl = some m))

theorem UsesMat.mulBy {em : EMode} {m : Buf α} (h : UsesMat b em m) : MulBy b em m := by
  obtain ⟨h1, h2, h3⟩ := h
  intro junk ne u v hu hv
  obtain ⟨v', e, l, a, c⟩ := strided_nt h2 hu hv
  refine ⟨v', ?_, l, a, c⟩
  rw [apply_nt (by rcases h3 with h | h | h | h <;> rw [h.1] <;> simp) hu hv, ← e]
  unfold applyCore
  rw [Res.check_true (by simp)]
  simp only [Res.bind_ok, h1, reduceCtorEq, false_and, if_false, decide_false, Bool.or_false,
    Option.getD_some, Bool.false_eq_true]
  rcases h3 with h | h | h | h <;> obtain ⟨rfl, h⟩ := h <;> simp [getInterp, getGrad, deref, h]

theorem UsesMat.mulByT {em : EMode} {m : Buf α} (h : UsesMat b em m) : MulByT b em m := by
  obtain ⟨h1, h2, h3⟩ := h
  intro junk ne w v hw hv
  obtain ⟨z, lz, az, e⟩ := apply_t (junk := junk) (em := em)
    (by rcases h3 with h | h | h | h <;> rw [h.1] <;> simp) hw hv
  have es := strided_t h2 hw (v := z) (by rw [lz]; exact hv)
  have eP : b.nc * b.P * ne = ne * b.nc * b.P := by ring
  refine ⟨_, Eq.trans ?_ es, lz, ?_, ?_⟩
  · rw [e]
    simp only [h1, Bool.false_eq_true, if_false]
    rcases h3 with h | h | h | h <;> obtain ⟨rfl, h⟩ := h <;> simp [getInterp, getGrad, deref, h]
  · intro k hk n hn e he
    have hlt : nodePos b.P ne k n e < b.nc * b.P * ne := enc_lt (enc_lt hk hn) he
    simp only [if_pos hlt]
    rw [cols_eq m.val w.val hn he, az _ (by omega), zero_add]
    rfl
  · intro x hx hx2
    simp only
    rw [if_neg (by omega), az _ hx2]

theorem UsesMat.addByT {em : EMode} {m : Buf α} (h : UsesMat b em m) : AddByT b em m := by
  obtain ⟨h1, h2, h3⟩ := h
  intro junk ne w v hw hv
  have es := strided_t h2 hw hv
  refine ⟨_, Eq.trans ?_ es, rfl, ?_, ?_⟩
  · rw [applyAdd_t (by rcases h3 with h | h | h | h <;> rw [h.1] <;> simp) hw hv]
    simp only [h1, Bool.false_eq_true, if_false]
    rcases h3 with h | h | h | h <;> obtain ⟨rfl, h⟩ := h <;> simp [getInterp, getGrad, deref, h]
  · intro k hk n hn e he
    have hlt : nodePos b.P ne k n e < b.nc * b.P * ne := enc_lt (enc_lt hk hn) he
    simp only [if_pos hlt]
    rw [cols_eq m.val w.val hn he]
    rfl
  · intro x hx
    simp only
    rw [if_neg (by omega)]

theorem usesMat_of {sp : Space} {i d w : Buf α} (h : NonTensorBasis b sp i d w) :
    (∃ m, UsesMat b .interp m ∧ getInterp b = .ok (some m) ∧ m.val = i.val) ∧
    (∃ m, UsesMat b sp.mode m ∧ m.val = d.val) ∧ b.isTensor = false ∧ b.Q = b.qWeight.len ∧ b.qWeight.val = w.val := by
  obtain ⟨dim, nc, P, Q, h⟩ := h
  unfold createNonTensor at h
  simp only [Res.bind_eq_ok, Res.check_eq_ok] at h
  obtain ⟨_, h1, _, h2, _, h3, w', hw, i', hi, d', hd, h⟩ := h
  obtain ⟨_, rfl⟩ := Restriction.copyIn_ok hw
  obtain ⟨_, rfl⟩ := Restriction.copyIn_ok hi
  obtain ⟨_, rfl⟩ := Restriction.copyIn_ok hd
  injection h with h
  subst h
  refine ⟨⟨_, ⟨rfl, ?_, Or.inl ⟨rfl, rfl⟩⟩, rfl, rfl⟩, ?_, rfl, rfl, rfl⟩
  · cases sp <;> simp [Bas.qComp]
  · cases sp
    · exact ⟨_, ⟨rfl, le_refl _, Or.inr (Or.inl ⟨rfl, rfl⟩)⟩, rfl⟩
    · exact ⟨_, ⟨rfl, by simp [Bas.qComp, Space.mode], Or.inr (Or.inr (Or.inl ⟨rfl, rfl⟩))⟩, rfl⟩
    · exact ⟨_, ⟨rfl, le_refl _, Or.inr (Or.inr (Or.inr ⟨rfl, rfl⟩))⟩, rfl⟩

end Basis
end Verif
