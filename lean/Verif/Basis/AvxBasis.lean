import Verif.Basis.AvxEq
import Mathlib.Tactic.Positivity
import Mathlib.Tactic.Ring

/-!
# Bases that contract with other loops

The reference application of a basis (`Verif/Basis/Model.lean`) with the contraction of another backend: the backends `opt` and
`avx` use the bases of the reference backend and replace `CeedTensorContractApply` only
(`backends/avx/ceed-avx.c` 33-40, `backends/opt/ceed-opt-serial.c` and `ceed-opt-blocked.c`).
-/

namespace Verif
namespace Basis

open Restriction (TMode)

section
variable (α : Type)

/-- The type of `CeedTensorContractApply`: `A B C J t tof tm add u uo v vo`. -/
abbrev Contr := Nat → Nat → Nat → Nat → Buf α → Nat → TMode → Bool → Buf α → Nat → Buf α → Nat → Res (Buf α)

end

variable {α : Type} [CommRing α]

/-- `contractStrided` with the contraction `K`; `interface/ceed-tensor.c` 99-112. -/
def contractStridedK (K : Contr α) (A B C D J : Nat) (t : Buf α) (tm : TMode) (add : Bool) (u v : Buf α) : Res (Buf α) :=
  match tm with
  | .transpose => loop D (fun d v => K A J C B t (d * B * J) tm add u (d * A * J * C) v 0) v
  | .noTranspose => loop D (fun d v => K A B C J t (d * B * J) tm add u 0 v (d * A * J * C)) v

/-- `chain` with the contraction `K`; `backends/ref/ceed-ref-basis.c` 71-79 and the other loops cited there. -/
def chainK (K : Contr α) (dim nc ne P Q size : Nat) (mat : Nat → Buf α) (tm : TMode) (addLast : Bool)
    (junk : Nat → Nat → α) (u : Buf α) (uo : Nat) (v : Buf α) (vo : Nat) : Res (Buf α) := do
  let s ← loop dim (fun d (s : ChainSt α) => do
    let (src, so) := if d = 0 then (u, uo) else if d % 2 = 0 then (s.tmp0, 0) else (s.tmp1, 0)
    let s ←
      if d = dim - 1 then do
        let o ← K s.pre P s.post Q (mat d) 0 tm addLast src so s.out vo
        Res.ok { s with out := o }
      else if (d + 1) % 2 = 0 then do
        let o ← K s.pre P s.post Q (mat d) 0 tm false src so s.tmp0 0
        Res.ok { s with tmp0 := o }
      else do
        let o ← K s.pre P s.post Q (mat d) 0 tm false src so s.tmp1 0
        Res.ok { s with tmp1 := o }
    Res.ok { s with pre := s.pre / P, post := s.post * Q })
    { pre := nc * P ^ (dim - 1), post := ne, tmp0 := ⟨size, junk 0⟩, tmp1 := ⟨size, junk 1⟩, out := v }
  .ok s.out

/-- `sweep` with the contraction `K`; `backends/ref/ceed-ref-basis.c` 103-111, 120-128, 138-144. -/
def sweepK (K : Contr α) (dim nc ne P Q : Nat) (mat : Buf α) (tm : TMode) (add : Nat → Bool) (u : Buf α) (uo : Nat → Nat)
    (v : Buf α) (vo : Nat → Nat) : Res (Buf α) := do
  let s ← loop dim (fun d (s : Nat × Nat × Buf α) => do
    let v ← K s.1 P s.2.1 Q mat 0 tm (add d) u (uo d) s.2.2 (vo d)
    Res.ok (s.1 / P, s.2.1 * Q, v)) (nc * P ^ (dim - 1), ne, v)
  .ok s.2.2

/-- `tensorInterp` with the contraction `K`; `backends/ref/ceed-ref-basis.c` 56-81. -/
def tensorInterpK (K : Contr α) (b : Bas α) (junk : Nat → Nat → α) (add : Bool) (ne : Nat) (tm : TMode) (u v : Buf α) :
    Res (Buf α) :=
  if b.colloInterp then memcpy u v (ne * b.nc * b.P)
  else match tm with
    | .noTranspose => chainK K b.dim b.nc ne b.P1 b.Q1 (tmpSize b ne b.P1 b.Q1) (fun _ => b.interp1) tm add junk u 0 v 0
    | .transpose => chainK K b.dim b.nc ne b.Q1 b.P1 (tmpSize b ne b.Q1 b.P1) (fun _ => b.interp1) tm add junk u 0 v 0

/-- `tensorGrad` with the contraction `K`; `backends/ref/ceed-ref-basis.c` 83-172. -/
def tensorGradK (K : Contr α) (b : Bas α) (junk : Nat → Nat → α) (applyAdd add : Bool) (ne : Nat) (tm : TMode)
    (u v : Buf α) : Res (Buf α) :=
  let stride := b.nc * b.Q * ne
  match b.colloGrad with
  | some cg =>
    let size := tmpSize b ne (match tm with | .noTranspose => b.P1 | .transpose => b.Q1) b.Q1
    let interp : Buf α := ⟨size, junk 2⟩
    match tm with
    | .noTranspose => do
      let interp ← chainK K b.dim b.nc ne b.P1 b.Q1 size (fun _ => b.interp1) tm false junk u 0 interp 0
      sweepK K b.dim b.nc ne b.Q1 b.Q1 cg tm (fun _ => applyAdd) interp (fun _ => 0) v (fun d => d * stride)
    | .transpose => do
      let interp ← sweepK K b.dim b.nc ne b.Q1 b.Q1 cg tm (fun d => decide (0 < d)) u (fun d => d * stride) interp
        (fun _ => 0)
      chainK K b.dim b.nc ne b.Q1 b.P1 size (fun _ => b.interp1) tm true junk interp 0 v 0
  | none =>
    if b.colloInterp then
      match tm with
      | .noTranspose => sweepK K b.dim b.nc ne b.P1 b.Q1 b.grad1 tm (fun d => add && decide (0 < d)) u (fun _ => 0) v
          (fun d => d * stride)
      | .transpose => sweepK K b.dim b.nc ne b.Q1 b.Q1 b.grad1 tm (fun d => add && decide (0 < d)) u
          (fun d => d * stride) v (fun _ => 0)
    else
      loop b.dim (fun p v =>
        let mat := fun d => if p = d then b.grad1 else b.interp1
        match tm with
        | .noTranspose => chainK K b.dim b.nc ne b.P1 b.Q1 (tmpSize b ne b.P1 b.Q1) mat tm add junk u 0 v (p * stride)
        | .transpose => chainK K b.dim b.nc ne b.Q1 b.P1 (tmpSize b ne b.Q1 b.P1) mat tm add junk u (p * stride) v 0) v

/-- The evaluation itself: `backends/ref/ceed-ref-basis.c` 44-246, with the contraction `K`. -/
def evalK (K : Contr α) (b : Bas α) (junk : Nat → Nat → α) (applyAdd add : Bool) (ne : Nat) (tm : TMode) (em : EMode)
    (u v : Buf α) : Res (Buf α) :=
  if b.isTensor then
    match em with
    | .interp => tensorInterpK K b junk add ne tm u v
    | .grad => tensorGradK K b junk applyAdd add ne tm u v
    | .weight => do
      Res.check (tm = .noTranspose) .backend
      tensorWeight b ne v
    | _ => .err .backend
  else
    let qc := b.qComp em
    match em with
    | .interp => do
      let m ← getInterp b
      let m ← deref m
      contractStridedK K b.nc b.P ne qc b.Q m tm add u v
    | .grad => do
      let m ← getGrad b
      let m ← deref m
      contractStridedK K b.nc b.P ne qc b.Q m tm add u v
    | .div => do
      let m ← deref b.div
      contractStridedK K b.nc b.P ne qc b.Q m tm add u v
    | .curl => do
      let m ← deref b.curl
      contractStridedK K b.nc b.P ne qc b.Q m tm add u v
    | .weight => do
      Res.check (tm = .noTranspose) .backend
      loop b.Q (fun i v => loop ne (fun e v => do
        let w ← b.qWeight.rd i
        v.wr (i * ne + e) w) v) v
    | .none => .err .backend

/-- `applyCore` with the contraction `K`; `backends/ref/ceed-ref-basis.c` 19-251. -/
def applyCoreK (K : Contr α) (b : Bas α) (junk : Nat → Nat → α) (applyAdd : Bool) (ne : Nat) (tm : TMode) (em : EMode)
    (u : Option (Buf α)) (v : Buf α) : Res (Buf α) := do
  let add := applyAdd || decide (tm = .transpose)
  Res.check (u.isSome ∨ em = .weight) .backend
  let u := u.getD ⟨0, fun _ => 0⟩
  let v ← if tm = .transpose ∧ applyAdd = false then Buf.fill v.len 0 v else Res.ok v
  evalK K b junk applyAdd add ne tm em u v

/-- `CeedBasisApply` (`interface/ceed-basis.c` 1944-1949) with the contraction `K`. -/
def applyK (K : Contr α) (b : Bas α) (junk : Nat → Nat → α) (ne : Nat) (tm : TMode) (em : EMode) (u : Option (Buf α))
    (v : Buf α) : Res (Buf α) := do
  checkDims b ne tm em u v
  applyCoreK K b junk false ne tm em u v

/-- `CeedBasisApplyAdd` (`interface/ceed-basis.c` 1972-1978) with the contraction `K`. -/
def applyAddK (K : Contr α) (b : Bas α) (junk : Nat → Nat → α) (ne : Nat) (tm : TMode) (em : EMode) (u : Option (Buf α))
    (v : Buf α) : Res (Buf α) := do
  Res.check (tm = .transpose) .unsupported
  checkDims b ne tm em u v
  applyCoreK K b junk true ne tm em u v

theorem applyCoreK_contract (b : Bas α) (junk : Nat → Nat → α) (applyAdd : Bool) (ne : Nat) (tm : TMode) (em : EMode)
    (u : Option (Buf α)) (v : Buf α) : applyCoreK contract b junk applyAdd ne tm em u v = applyCore b junk applyAdd ne tm em u v :=
  rfl

theorem applyK_contract (b : Bas α) (junk : Nat → Nat → α) (ne : Nat) (tm : TMode) (em : EMode)
    (u : Option (Buf α)) (v : Buf α) : applyK contract b junk ne tm em u v = apply b junk ne tm em u v := rfl

theorem applyAddK_contract (b : Bas α) (junk : Nat → Nat → α) (ne : Nat) (tm : TMode) (em : EMode)
    (u : Option (Buf α)) (v : Buf α) : applyAddK contract b junk ne tm em u v = applyAdd b junk ne tm em u v := rfl

/-! ## Results that carry over -/

/-- `y` is `x`, unless `x` is undefined. -/
def _root_.Verif.Res.Le {β : Type _} (x y : Res β) : Prop := x ≠ .ub → y = x

theorem Le.refl {β : Type _} (x : Res β) : Res.Le x x := fun _ => rfl

theorem Le.bind {β γ : Type _} {x y : Res β} {f g : β → Res γ} (h : Res.Le x y)
    (hf : ∀ a, x = .ok a → Res.Le (f a) (g a)) : Res.Le (x >>= f) (y >>= g) := by
  intro hn
  cases hx : x with
  | ok a =>
    rw [hx] at h hn
    rw [h (by simp), Res.bind_ok, Res.bind_ok]
    exact hf a hx hn
  | err e =>
    rw [hx] at h
    rw [h (by simp), Res.bind_err, Res.bind_err]
  | ub => rw [hx] at hn; exact absurd rfl hn

theorem Le.loop {σ : Type _} {n : Nat} {f g : Nat → σ → Res σ} (I : Nat → σ → Prop) {s : σ} (h0 : I 0 s)
    (hf : ∀ i < n, ∀ s, I i s → Res.Le (f i s) (g i s)) (hi : ∀ i < n, ∀ s s', I i s → f i s = .ok s' → I (i + 1) s') :
    Res.Le (loop n f s) (loop n g s) := by
  suffices H : ∀ m ≤ n, Res.Le (Verif.loop m f s) (Verif.loop m g s) ∧ ∀ r, Verif.loop m f s = .ok r → I m r from
    (H n le_rfl).1
  intro m
  induction m with
  | zero => intro _; exact ⟨Le.refl _, fun r hr => by rw [loop_zero] at hr; cases hr; exact h0⟩
  | succ m ih =>
    intro hm
    obtain ⟨h1, h2⟩ := ih (by omega)
    rw [loop_succ, loop_succ]
    refine ⟨Le.bind h1 fun q hq => hf m (by omega) q (h2 q hq), fun r hr => ?_⟩
    obtain ⟨q, hq, hr⟩ := Res.bind_eq_ok.1 hr
    exact hi m (by omega) q r (h2 q hq) hr

/-- `K` gives what the reference contraction gives, except perhaps for one column and one row of results. -/
def Follows (K : Contr α) : Prop := ∀ A B C J t tof tm add u uo v vo, 0 < A → 0 < B → 0 < J → (C ≠ 1 ∨ J ≠ 1) →
  Res.Le (contract A B C J t tof tm add u uo v vo) (K A B C J t tof tm add u uo v vo)

section
variable {K : Contr α} (hK : Follows K)
include hK

theorem chainK_le {dim nc ne P Q size : Nat} {mat : Nat → Buf α} {tm : TMode} {addLast : Bool} {junk : Nat → Nat → α}
    {u : Buf α} {uo : Nat} {v : Buf α} {vo : Nat} (hnc : 0 < nc) (hP : 0 < P) (hQ : 0 < Q) (h1 : ne ≠ 1 ∨ Q ≠ 1) :
    Res.Le (chain dim nc ne P Q size mat tm addLast junk u uo v vo)
      (chainK K dim nc ne P Q size mat tm addLast junk u uo v vo) := by
  unfold chain chainK
  refine Le.bind (Le.loop (fun i s => s.post = ne * Q ^ i ∧ (i < dim → s.pre = nc * P ^ (dim - 1 - i))) ⟨by simp, by simp⟩
    (fun i hi s hs => ?_) fun i hi s s' hs h => ?_) fun _ _ => Le.refl _
  · obtain ⟨h2, h3⟩ := hs
    have hA : 0 < s.pre := by rw [h3 hi]; positivity
    have hC : s.post ≠ 1 ∨ Q ≠ 1 := by
      by_cases hq : Q = 1
      · left; rw [h2, hq]; simpa [hq] using h1
      · exact Or.inr hq
    generalize (if i = 0 then (u, uo) else if i % 2 = 0 then (s.tmp0, 0) else (s.tmp1, 0)) = p
    obtain ⟨src, so⟩ := p
    dsimp only
    by_cases c1 : i = dim - 1
    · rw [if_pos c1, if_pos c1]
      exact Le.bind (hK _ _ _ _ _ _ _ _ _ _ _ _ hA hP hQ hC) fun _ _ => Le.refl _
    · rw [if_neg c1, if_neg c1]
      by_cases c2 : (i + 1) % 2 = 0
      · rw [if_pos c2, if_pos c2]
        exact Le.bind (hK _ _ _ _ _ _ _ _ _ _ _ _ hA hP hQ hC) fun _ _ => Le.refl _
      · rw [if_neg c2, if_neg c2]
        exact Le.bind (hK _ _ _ _ _ _ _ _ _ _ _ _ hA hP hQ hC) fun _ _ => Le.refl _
  · obtain ⟨h2, h3⟩ := hs
    generalize (if i = 0 then (u, uo) else if i % 2 = 0 then (s.tmp0, 0) else (s.tmp1, 0)) = p at h
    obtain ⟨src, so⟩ := p
    dsimp only at h
    have e : s'.pre = s.pre / P ∧ s'.post = s.post * Q := by
      by_cases c1 : i = dim - 1
      · rw [if_pos c1] at h
        obtain ⟨o, _, h⟩ := Res.bind_eq_ok.1 h
        cases h; exact ⟨rfl, rfl⟩
      · rw [if_neg c1] at h
        by_cases c2 : (i + 1) % 2 = 0
        · rw [if_pos c2] at h
          obtain ⟨o, _, h⟩ := Res.bind_eq_ok.1 h
          cases h; exact ⟨rfl, rfl⟩
        · rw [if_neg c2] at h
          obtain ⟨o, _, h⟩ := Res.bind_eq_ok.1 h
          cases h; exact ⟨rfl, rfl⟩
    refine ⟨by rw [e.2, h2, pow_succ, mul_assoc], fun h => ?_⟩
    rw [e.1, h3 hi, show dim - 1 - i = (dim - 1 - (i + 1)) + 1 by omega, pow_succ, ← mul_assoc, Nat.mul_div_cancel _ hP]

theorem sweepK_le {dim nc ne P Q : Nat} {mat : Buf α} {tm : TMode} {add : Nat → Bool} {u : Buf α} {uo : Nat → Nat}
    {v : Buf α} {vo : Nat → Nat} (hnc : 0 < nc) (hP : 0 < P) (hQ : 0 < Q) (h1 : ne ≠ 1 ∨ Q ≠ 1) :
    Res.Le (sweep dim nc ne P Q mat tm add u uo v vo) (sweepK K dim nc ne P Q mat tm add u uo v vo) := by
  unfold sweep sweepK
  refine Le.bind (Le.loop (fun i s => s.2.1 = ne * Q ^ i ∧ (i < dim → s.1 = nc * P ^ (dim - 1 - i))) ⟨by simp, by simp⟩
    (fun i hi s hs => ?_) fun i hi s s' hs h => ?_) fun _ _ => Le.refl _
  · obtain ⟨h2, h3⟩ := hs
    have hA : 0 < s.1 := by rw [h3 hi]; positivity
    have hC : s.2.1 ≠ 1 ∨ Q ≠ 1 := by
      by_cases hq : Q = 1
      · left; rw [h2, hq]; simpa [hq] using h1
      · exact Or.inr hq
    exact Le.bind (hK _ _ _ _ _ _ _ _ _ _ _ _ hA hP hQ hC) fun _ _ => Le.refl _
  · obtain ⟨h2, h3⟩ := hs
    obtain ⟨q, hq, h⟩ := Res.bind_eq_ok.1 h
    cases h
    refine ⟨by dsimp only; rw [h2, pow_succ, mul_assoc], fun h => ?_⟩
    dsimp only
    rw [h3 hi, show dim - 1 - i = (dim - 1 - (i + 1)) + 1 by omega, pow_succ, ← mul_assoc, Nat.mul_div_cancel _ hP]

theorem stridedK_le {nc P ne qc Q : Nat} {m u v : Buf α} {tm : TMode} {add : Bool} (hnc : 0 < nc) (hP : 0 < P) (hQ : 0 < Q)
    (h1 : ne ≠ 1 ∨ (P ≠ 1 ∧ Q ≠ 1)) :
    Res.Le (contractStrided nc P ne qc Q m tm add u v) (contractStridedK K nc P ne qc Q m tm add u v) := by
  cases tm
  · exact Le.loop (fun _ _ => True) trivial (fun i _ s _ => hK _ _ _ _ _ _ _ _ _ _ _ _ hnc hP hQ (h1.imp_right And.right))
      fun _ _ _ _ _ _ => trivial
  · exact Le.loop (fun _ _ => True) trivial (fun i _ s _ => hK _ _ _ _ _ _ _ _ _ _ _ _ hnc hQ hP (h1.imp_right And.left))
      fun _ _ _ _ _ _ => trivial

theorem interpK_le {b : Bas α} {junk : Nat → Nat → α} {add : Bool} {ne : Nat} {tm : TMode} {u v : Buf α} (hnc : 0 < b.nc)
    (hP : 0 < b.P1) (hQ : 0 < b.Q1) (h1 : ne ≠ 1 ∨ (b.P1 ≠ 1 ∧ b.Q1 ≠ 1)) :
    Res.Le (tensorInterp b junk add ne tm u v) (tensorInterpK K b junk add ne tm u v) := by
  unfold tensorInterp tensorInterpK
  by_cases hc : b.colloInterp = true
  · rw [if_pos hc, if_pos hc]; exact Le.refl _
  · rw [if_neg hc, if_neg hc]
    cases tm
    · exact chainK_le hK hnc hP hQ (h1.imp_right And.right)
    · exact chainK_le hK hnc hQ hP (h1.imp_right And.left)

theorem gradK_le {b : Bas α} {junk : Nat → Nat → α} {aa add : Bool} {ne : Nat} {tm : TMode} {u v : Buf α} (hnc : 0 < b.nc)
    (hP : 0 < b.P1) (hQ : 0 < b.Q1) (h1 : ne ≠ 1 ∨ (b.P1 ≠ 1 ∧ b.Q1 ≠ 1)) :
    Res.Le (tensorGrad b junk aa add ne tm u v) (tensorGradK K b junk aa add ne tm u v) := by
  have hp := h1.imp_right And.left
  have hq := h1.imp_right And.right
  unfold tensorGrad tensorGradK
  cases hg : b.colloGrad with
  | some cg =>
    cases tm
    · exact Le.bind (chainK_le hK hnc hP hQ hq) fun _ _ => sweepK_le hK hnc hQ hQ hq
    · exact Le.bind (sweepK_le hK hnc hQ hQ hq) fun _ _ => chainK_le hK hnc hQ hP hp
  | none =>
    dsimp only
    by_cases hc : b.colloInterp = true
    · rw [if_pos hc, if_pos hc]
      cases tm
      · exact sweepK_le hK hnc hP hQ hq
      · exact sweepK_le hK hnc hQ hQ hq
    · rw [if_neg hc, if_neg hc]
      refine Le.loop (fun _ _ => True) trivial (fun i _ s _ => ?_) fun _ _ _ _ _ _ => trivial
      cases tm
      · exact chainK_le hK hnc hP hQ hq
      · exact chainK_le hK hnc hQ hP hp

/-- Sizes of a basis that has been created. -/
def Bas.Sized (b : Bas α) : Prop :=
  0 < b.nc ∧ (b.isTensor = true → 0 < b.P1 ∧ 0 < b.Q1) ∧ (b.isTensor = false → 0 < b.P ∧ 0 < b.Q)

/-- Neither one node nor one quadrature point (along a line for a tensor basis). -/
def Bas.Several (b : Bas α) : Prop := if b.isTensor then b.P1 ≠ 1 ∧ b.Q1 ≠ 1 else b.P ≠ 1 ∧ b.Q ≠ 1

theorem applyCoreK_le {b : Bas α} {junk : Nat → Nat → α} {aa : Bool} {ne : Nat} {tm : TMode} {em : EMode}
    {u : Option (Buf α)} {v : Buf α} (hs : b.Sized) (h1 : ne ≠ 1 ∨ b.Several) :
    Res.Le (applyCore b junk aa ne tm em u v) (applyCoreK K b junk aa ne tm em u v) := by
  obtain ⟨hnc, ht, hn⟩ := hs
  have core : ∀ add u v, Res.Le (evalK contract b junk aa add ne tm em u v) (evalK K b junk aa add ne tm em u v) := ?_
  · rw [← applyCoreK_contract]
    unfold applyCoreK
    refine Le.bind (Le.refl _) fun _ _ => ?_
    dsimp only
    by_cases hz : tm = .transpose ∧ aa = false
    · rw [if_pos hz, if_pos hz]
      exact Le.bind (Le.refl _) fun _ _ => core _ _ _
    · rw [if_neg hz, if_neg hz]
      exact core _ _ _
  intro add u v
  unfold evalK
  by_cases h : b.isTensor = true
  · rw [if_pos h, if_pos h]
    obtain ⟨hP, hQ⟩ := ht h
    have h2 : ne ≠ 1 ∨ (b.P1 ≠ 1 ∧ b.Q1 ≠ 1) := by simpa [Bas.Several, h] using h1
    cases em
    · exact Le.refl _
    · exact interpK_le hK hnc hP hQ h2
    · exact gradK_le hK hnc hP hQ h2
    · exact Le.refl _
    · exact Le.refl _
    · exact Le.refl _
  · rw [if_neg h, if_neg h]
    obtain ⟨hP, hQ⟩ := hn (by simpa using h)
    have h2 : ne ≠ 1 ∨ (b.P ≠ 1 ∧ b.Q ≠ 1) := by simpa [Bas.Several, h] using h1
    cases em
    · exact Le.refl _
    · exact Le.bind (Le.refl _) fun _ _ => Le.bind (Le.refl _) fun _ _ => stridedK_le hK hnc hP hQ h2
    · exact Le.bind (Le.refl _) fun _ _ => Le.bind (Le.refl _) fun _ _ => stridedK_le hK hnc hP hQ h2
    · exact Le.bind (Le.refl _) fun _ _ => stridedK_le hK hnc hP hQ h2
    · exact Le.bind (Le.refl _) fun _ _ => stridedK_le hK hnc hP hQ h2
    · exact Le.refl _

end

/-! ## Bounds of a contraction that succeeds -/

theorem loop_runs {σ : Type _} {n : Nat} {body : Nat → σ → Res σ} {s r : σ} (I : σ → Prop) (h0 : I s)
    (hi : ∀ i < n, ∀ s s', I s → body i s = .ok s' → I s') (h : loop n body s = .ok r) :
    I r ∧ ∀ i < n, ∃ s, I s ∧ ∃ s', body i s = .ok s' := by
  suffices H : ∀ m ≤ n, ∀ r, loop m body s = .ok r → I r ∧ ∀ i < m, ∃ s, I s ∧ ∃ s', body i s = .ok s' from H n le_rfl r h
  intro m
  induction m with
  | zero => intro _ r hr; rw [loop_zero] at hr; cases hr; exact ⟨h0, fun i hi => by omega⟩
  | succ m ih =>
    intro hm r hr
    rw [loop_succ] at hr
    obtain ⟨q, hq, hr⟩ := Res.bind_eq_ok.1 hr
    obtain ⟨hI, hl⟩ := ih (by omega) q hq
    refine ⟨hi m (by omega) q r hI hr, fun i h => ?_⟩
    by_cases hc : i = m
    · subst hc; exact ⟨q, hI, r, hr⟩
    · exact hl i (by omega)

theorem addAt_ok {v w : Buf α} {i : Nat} {x : α} (h : v.addAt i x = .ok w) : i < v.len ∧ w.len = v.len := by
  by_cases hi : i < v.len
  · rw [Buf.addAt_lt hi] at h; cases h; exact ⟨hi, rfl⟩
  · rw [Buf.addAt_ge hi] at h; cases h

theorem rd_ok {v : Buf α} {i : Nat} {x : α} (h : v.rd i = .ok x) : i < v.len := by
  by_contra hi
  rw [Buf.rd_ge hi] at h; cases h

theorem wr_ok {v w : Buf α} {i : Nat} {x : α} (h : v.wr i x = .ok w) : i < v.len ∧ w.len = v.len := by
  by_cases hi : i < v.len
  · rw [Buf.wr_lt hi] at h; cases h; exact ⟨hi, rfl⟩
  · simp [Buf.wr, hi] at h

theorem contract_bounds {A B C J : Nat} {t : Buf α} {tof : Nat} {tm : TMode} {add : Bool} {u : Buf α}
    {uo : Nat} {v : Buf α} {vo : Nat} {w : Buf α} (hA : 0 < A) (hB : 0 < B) (hC : 0 < C) (hJ : 0 < J)
    (h : contract A B C J t tof tm add u uo v vo = .ok w) :
    tof + B * J ≤ t.len ∧ uo + A * B * C ≤ u.len ∧ vo + A * J * C ≤ v.len := by
  obtain ⟨z, hz, hzl⟩ : ∃ z, contract A B C J t tof tm true u uo z vo = .ok w ∧ z.len = v.len := by
    cases add
    · unfold contract at h
      obtain ⟨z, hz, h⟩ := Res.bind_eq_ok.1 h
      exact ⟨z, h, (loop_runs (fun s => s.len = v.len) rfl (fun i _ s s' hs h => by rw [(wr_ok h).2, hs]) hz).1⟩
    · exact ⟨v, h, rfl⟩
  replace h := hz
  simp only [contract, if_true, Res.bind_ok] at h
  have I4 : ∀ (tq : α) (a b j : Nat) (s s' : Buf α), s.len = v.len → loop C (fun c v => do
      let x ← u.rd (uo + ((a * B + b) * C + c))
      v.addAt (vo + ((a * J + j) * C + c)) (tq * x)) s = .ok s' → s'.len = v.len ∧ ∀ c < C,
        uo + ((a * B + b) * C + c) < u.len ∧ vo + ((a * J + j) * C + c) < v.len := by
    intro tq a b j s s' hs h
    obtain ⟨e, hr⟩ := loop_runs (fun s => s.len = v.len) hs (fun i _ s s' hs h => by
      obtain ⟨x, _, h⟩ := Res.bind_eq_ok.1 h
      rw [(addAt_ok h).2, hs]) h
    refine ⟨e, fun c hc => ?_⟩
    obtain ⟨s, hs, s', h⟩ := hr c hc
    obtain ⟨x, hx, h⟩ := Res.bind_eq_ok.1 h
    exact ⟨rd_ok hx, hs ▸ (addAt_ok h).1⟩
  have I3 : ∀ (a b : Nat) (s s' : Buf α), s.len = v.len → loop J (fun j v => do
      let tq ← t.rd (tof + (j * (tStride tm B J).1 + b * (tStride tm B J).2))
      loop C (fun c v => do
        let x ← u.rd (uo + ((a * B + b) * C + c))
        v.addAt (vo + ((a * J + j) * C + c)) (tq * x)) v) s = .ok s' → s'.len = v.len ∧ ∀ j < J,
        tof + (j * (tStride tm B J).1 + b * (tStride tm B J).2) < t.len ∧
        ∀ c < C, uo + ((a * B + b) * C + c) < u.len ∧ vo + ((a * J + j) * C + c) < v.len := by
    intro a b s s' hs h
    obtain ⟨e, hr⟩ := loop_runs (fun s => s.len = v.len) hs (fun i _ s s' hs h => by
      obtain ⟨x, _, h⟩ := Res.bind_eq_ok.1 h
      exact (I4 _ _ _ _ _ _ hs h).1) h
    refine ⟨e, fun c hc => ?_⟩
    obtain ⟨s, hs, s', h⟩ := hr c hc
    obtain ⟨x, hx, h⟩ := Res.bind_eq_ok.1 h
    exact ⟨rd_ok hx, (I4 _ _ _ _ _ _ hs h).2⟩
  have I2 : ∀ (a : Nat) (s s' : Buf α), s.len = v.len → loop B (fun b v => loop J (fun j v => do
      let tq ← t.rd (tof + (j * (tStride tm B J).1 + b * (tStride tm B J).2))
      loop C (fun c v => do
        let x ← u.rd (uo + ((a * B + b) * C + c))
        v.addAt (vo + ((a * J + j) * C + c)) (tq * x)) v) v) s = .ok s' → s'.len = v.len ∧ ∀ b < B, ∀ j < J,
        tof + (j * (tStride tm B J).1 + b * (tStride tm B J).2) < t.len ∧
        ∀ c < C, uo + ((a * B + b) * C + c) < u.len ∧ vo + ((a * J + j) * C + c) < v.len := by
    intro a s s' hs h
    obtain ⟨e, hr⟩ := loop_runs (fun s => s.len = v.len) hs (fun i _ s s' hs h => (I3 _ _ _ _ hs h).1) h
    refine ⟨e, fun c hc => ?_⟩
    obtain ⟨s, hs, s', h⟩ := hr c hc
    exact (I3 _ _ _ _ hs h).2
  obtain ⟨_, hr⟩ := loop_runs (fun s => s.len = v.len) hzl (fun i _ s s' hs h => (I2 _ _ _ hs h).1) h
  obtain ⟨s, hs, s', h⟩ := hr (A - 1) (by omega)
  obtain ⟨h1, h2⟩ := (I2 _ _ _ hs h).2 (B - 1) (by omega) (J - 1) (by omega)
  obtain ⟨h3, h4⟩ := h2 (C - 1) (by omega)
  obtain ⟨a, rfl⟩ := Nat.exists_eq_succ_of_ne_zero hA.ne'
  obtain ⟨b, rfl⟩ := Nat.exists_eq_succ_of_ne_zero hB.ne'
  obtain ⟨c, rfl⟩ := Nat.exists_eq_succ_of_ne_zero hC.ne'
  obtain ⟨j, rfl⟩ := Nat.exists_eq_succ_of_ne_zero hJ.ne'
  simp only [Nat.succ_eq_add_one, Nat.add_sub_cancel] at *
  refine ⟨?_, ?_, ?_⟩
  · cases tm
    · simp only [tStride] at h1; ring_nf at h1 ⊢; omega
    · simp only [tStride] at h1; ring_nf at h1 ⊢; omega
  · ring_nf at h3 ⊢; omega
  · ring_nf at h4 ⊢; omega

theorem contractAvx_of {junk : Nat → Reg α} {A B C J : Nat} {t : Buf α} {tof : Nat} {tm : TMode} {add : Bool} {u : Buf α}
    {uo : Nat} {v : Buf α} {vo : Nat} {w : Buf α} (hA : 0 < A) (hB : 0 < B) (hJ : 0 < J) (hf : AvxFits A C J vo v.len)
    (h : contract A B C J t tof tm add u uo v vo = .ok w) : contractAvx junk A B C J t tof tm add u uo v vo = .ok w := by
  by_cases hC : C = 0
  · subst hC
    have e : w = v := by
      replace h : contract A B 0 J t tof tm true u uo v vo = .ok w := by
        cases add
        · exact h
        · exact h
      simp only [contract, if_true, Res.bind_ok] at h
      refine (loop_runs (fun s => s = v) rfl (fun a _ s s' hs h => ?_) h).1
      refine (loop_runs (fun s => s = v) hs (fun b _ s s' hs h => ?_) h).1
      refine (loop_runs (fun s => s = v) hs (fun j _ s s' hs h => ?_) h).1
      obtain ⟨x, _, h⟩ := Res.bind_eq_ok.1 h
      rw [loop_zero] at h
      cases h; exact hs
    unfold contractAvx
    cases add <;> simp [e]
  · obtain ⟨h1, h2, h3⟩ := contract_bounds hA hB (by omega) hJ h
    rw [contractAvx_eq hA hJ h1 h2 h3 hf, ← contract_eq A B C J t tof tm add u uo v vo h1 h2 h3, h]

/-- No error is reported. -/
def NoErr {β : Type _} (x : Res β) : Prop := ∀ e, x ≠ .err e

theorem NoErr.bind {β γ : Type _} {x : Res β} {f : β → Res γ} (h : NoErr x) (hf : ∀ a, NoErr (f a)) : NoErr (x >>= f) := by
  cases x with
  | ok a => exact hf a
  | err e => exact absurd rfl (h e)
  | ub => intro e h; cases h

theorem NoErr.loop {σ : Type _} {n : Nat} {f : Nat → σ → Res σ} {s : σ} (hf : ∀ i s, NoErr (f i s)) : NoErr (loop n f s) := by
  induction n with
  | zero => intro e h; cases h
  | succ n ih => rw [loop_succ]; exact ih.bind fun q => hf n q

theorem NoErr.rd {v : Buf α} {i : Nat} : NoErr (v.rd i) := by
  intro e h; simp only [Buf.rd] at h; split at h <;> cases h

theorem NoErr.wr {v : Buf α} {i : Nat} {x : α} : NoErr (v.wr i x) := by
  intro e h; simp only [Buf.wr] at h; split at h <;> cases h

theorem NoErr.addAt {v : Buf α} {i : Nat} {x : α} : NoErr (v.addAt i x) := by
  by_cases h : i < v.len
  · rw [Buf.addAt_lt h]; intro e h; cases h
  · rw [Buf.addAt_ge h]; intro e h; cases h

theorem contract_noErr {A B C J : Nat} {t : Buf α} {tof : Nat} {tm : TMode} {add : Bool} {u : Buf α}
    {uo : Nat} {v : Buf α} {vo : Nat} : NoErr (contract A B C J t tof tm add u uo v vo) := by
  have core : ∀ v, NoErr (contract A B C J t tof tm true u uo v vo) := by
    intro v
    simp only [contract, if_true, Res.bind_ok]
    exact NoErr.loop fun a v => NoErr.loop fun b v => NoErr.loop fun j v => NoErr.rd.bind fun tq =>
      NoErr.loop fun c v => NoErr.rd.bind fun x => NoErr.addAt
  cases add
  · unfold contract
    exact (NoErr.loop fun _ _ => NoErr.wr).bind fun z => core z
  · exact core v

theorem contractAvx_le {junk : Nat → Reg α} {A B C J : Nat} {t : Buf α} {tof : Nat} {tm : TMode} {add : Bool} {u : Buf α}
    {uo : Nat} {v : Buf α} {vo : Nat} (hA : 0 < A) (hB : 0 < B) (hJ : 0 < J) (hf : AvxFits A C J vo v.len) :
    Res.Le (contract A B C J t tof tm add u uo v vo) (contractAvx junk A B C J t tof tm add u uo v vo) := by
  intro h
  cases hc : contract A B C J t tof tm add u uo v vo with
  | ok w => exact contractAvx_of hA hB hJ hf hc
  | err e => exact absurd hc (contract_noErr e)
  | ub => exact absurd hc h

theorem follows_avx (junk : Nat → Reg α) : Follows (contractAvx junk) :=
  fun _ _ _ _ _ _ _ _ _ _ _ _ hA hB hJ hCJ => contractAvx_le hA hB hJ (fun hC hJ1 => absurd hJ1 (hCJ.resolve_left
    (fun h => h hC)))

/-! ## One column and one row of results -/

theorem storeu_len {v w : Buf α} {i : Nat} {x : Reg α} (h : storeu v i x = .ok w) : w.len = v.len := by
  unfold storeu at h
  split at h <;> cases h
  rfl

theorem tile_len {N n m : Nat} {pos : Nat → Nat → Nat} {junk : Nat → Reg α} {acc : Buf (Reg α) → Res (Buf (Reg α))}
    {v w : Buf α} (h : tile N n m pos junk acc v = .ok w) : w.len = v.len ∧ ∀ r < n, ∀ k < m, pos r k + 4 ≤ v.len := by
  unfold tile at h
  obtain ⟨vv, h1, h⟩ := Res.bind_eq_ok.1 h
  obtain ⟨vv', _, h⟩ := Res.bind_eq_ok.1 h
  constructor
  · refine (loop_runs (fun s => s.len = v.len) rfl (fun r _ s s' hs h => ?_) h).1
    refine (loop_runs (fun s => s.len = v.len) hs (fun k _ s s' hs h => ?_) h).1
    obtain ⟨x, _, h⟩ := Res.bind_eq_ok.1 h
    rw [storeu_len h, hs]
  · intro r hr k hk
    obtain ⟨_, h2⟩ := loop_runs (fun _ => True) trivial (fun _ _ _ _ _ _ => trivial) h1
    obtain ⟨s, _, s', h3⟩ := h2 r hr
    obtain ⟨_, h4⟩ := loop_runs (fun _ => True) trivial (fun _ _ _ _ _ _ => trivial) h3
    obtain ⟨s, _, s', h5⟩ := h4 k hk
    obtain ⟨x, hx, _⟩ := Res.bind_eq_ok.1 h5
    unfold loadu at hx
    split at hx
    · assumption
    · cases hx

theorem contractAvx_fits {junk : Nat → Reg α} {A B : Nat} {t : Buf α} {tof : Nat} {tm : TMode} {add : Bool}
    {u : Buf α} {uo : Nat} {v : Buf α} {vo : Nat} {w : Buf α}
    (h : contractAvx junk A B 1 1 t tof tm add u uo v vo = .ok w) : AvxFits A 1 1 vo v.len := by
  obtain ⟨z, hz, hzl⟩ : ∃ z, contractAvx junk A B 1 1 t tof tm true u uo z vo = .ok w ∧ z.len = v.len := by
    cases add
    · unfold contractAvx at h
      obtain ⟨z, hz, h⟩ := Res.bind_eq_ok.1 h
      exact ⟨z, h, (loop_runs (fun s => s.len = v.len) rfl (fun i _ s s' hs h => by rw [(wr_ok h).2, hs]) hz).1⟩
    · exact ⟨v, h, rfl⟩
  intro _ _ hb
  simp only [contractAvx, if_true, Res.bind_ok, avxSingle] at hz
  obtain ⟨z1, e1, hz⟩ := Res.bind_eq_ok.1 hz
  obtain ⟨z2, e2, hz⟩ := Res.bind_eq_ok.1 hz
  obtain ⟨z3, e3, hz⟩ := Res.bind_eq_ok.1 hz
  have h1 : z1.len = v.len := by
    refine (loop_runs (fun s => s.len = v.len) hzl (fun r _ s s' hs h => ?_) e1).1
    exact (loop_runs (fun s => s.len = v.len) hs (fun r _ s s' hs h => by rw [(tile_len h).1, hs]) h).1
  have h2 : z2.len = v.len := (loop_runs (fun s => s.len = v.len) h1 (fun r _ s s' hs h => by rw [(tile_len h).1, hs]) e2).1
  obtain ⟨_, h3⟩ := loop_runs (fun s => s.len = v.len) h2 (fun r _ s s' hs h => 
    (loop_runs (fun s => s.len = v.len) hs (fun r _ s s' hs h => by rw [(tile_len h).1, hs]) h).1) e3
  obtain ⟨s, hs, s', h4⟩ := h3 0 (by omega)
  have hA : 0 < A := by
    by_contra h0
    obtain rfl : A = 0 := by omega
    simp [brk] at hb
  obtain ⟨q, hq, hq1, hq2⟩ := brk4 hA
  obtain ⟨_, h5⟩ := loop_runs (fun s => s.len = v.len) hs (fun r _ s s' hs h => by rw [(tile_len h).1, hs]) h4
  rw [hq] at hb h5 ⊢
  have hq0 : 0 < q := by omega
  obtain ⟨s, hs, s', h6⟩ := h5 (q - 1) (by simp only [Int.toNat_natCast]; omega)
  have := (tile_len h6).2 3 (by omega) 0 (by omega)
  rw [hs] at this
  simp only [Int.toNat_natCast] at this ⊢
  omega

/-- The array of results has room for the registers that are loaded and stored for one row and one column of results: none
for four entries and less, and otherwise up to three entries past the last multiple of four before the end. -/
def Room (A vo L : Nat) : Prop := A ≤ 4 ∨ vo + (A - 1) / 4 * 4 + 3 ≤ L

theorem avxFits_iff {A C J vo L : Nat} (hA : 0 < A) : AvxFits A C J vo L ↔ (C = 1 → J = 1 → Room A vo L) := by
  obtain ⟨q, hq, hq1, hq2⟩ := brk4 hA
  unfold AvxFits Room
  rw [hq]
  simp only [Int.toNat_natCast]
  constructor
  · intro h hC hJ
    have := h hC hJ
    omega
  · intro h hC hJ hb
    have := h hC hJ
    omega

end Basis
end Verif
