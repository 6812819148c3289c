import Verif.Flops.Model
import Mathlib.Tactic.Ring
import Mathlib.Algebra.BigOperators.Intervals

/-!
# The counter does not change results, and what it counts

`tick x n` is the result `x` with the count `n`.
-/

namespace Verif
namespace Flops

open Restriction (TMode RType Rstr)
open Basis (Bas EMode)
open Finset (range)

/-- The result of a computation with a count. -/
def tick {σ : Type _} (x : Res σ) (n : Nat) : Res (σ × Nat) := x >>= fun s => Res.ok (s, n)

section
variable {σ τ : Type _}

@[simp] theorem tick_ok (s : σ) (n : Nat) : tick (Res.ok s) n = Res.ok (s, n) := rfl
@[simp] theorem tick_err (e : Err) (n : Nat) : tick (Res.err e : Res σ) n = Res.err e := rfl
@[simp] theorem tick_ub (n : Nat) : tick (Res.ub : Res σ) n = Res.ub := rfl

theorem tick_bind (x : Res σ) (f : σ → Res τ) (n : Nat) : tick (x >>= f) n = (x >>= fun s => tick (f s) n) := by
  cases x <;> rfl

theorem bind_tick (x : Res σ) (n : Nat) (f : σ × Nat → Res τ) : (tick x n >>= f) = (x >>= fun s => f (s, n)) := by
  cases x <;> rfl

theorem tick_eq_ok {x : Res σ} {n : Nat} {p : σ × Nat} : tick x n = .ok p ↔ x = .ok p.1 ∧ p.2 = n := by
  cases x with
  | ok s =>
    simp only [tick_ok, Res.ok.injEq]
    constructor
    · rintro rfl; exact ⟨rfl, rfl⟩
    · rintro ⟨h1, h2⟩; exact Prod.ext h1 h2.symm
  | err e => simp
  | ub => simp

theorem bind_congr' (x : Res σ) {f g : σ → Res τ} (h : ∀ s, f s = g s) : (x >>= f) = (x >>= g) := by
  cases x <;> simp [h]

/-- A loop whose body counts, under an invariant. -/
theorem loop_tick_inv {n : Nat} {bodyC : Nat → σ × Nat → Res (σ × Nat)} {body : Nat → σ → Res σ} (w : Nat → Nat)
    (I : Nat → σ → Prop) (s : σ) (k : Nat) (h0 : I 0 s)
    (hs : ∀ i < n, ∀ s, I i s → ∀ s', body i s = .ok s' → I (i + 1) s')
    (h : ∀ i < n, ∀ s k, I i s → bodyC i (s, k) = tick (body i s) (k + w i)) :
    loop n bodyC (s, k) = tick (loop n body s) (k + ∑ i ∈ range n, w i) := by
  have : loop n bodyC (s, k) = tick (loop n body s) (k + ∑ i ∈ range n, w i) ∧
      ∀ s', loop n body s = .ok s' → I n s' := by
    induction n with
    | zero => exact ⟨by simp, by rintro s' h; simp at h; exact h ▸ h0⟩
    | succ n ih =>
      obtain ⟨e, hi⟩ := ih (fun i hi => hs i (by omega)) (fun i hi => h i (by omega))
      rw [loop_succ, loop_succ, e, bind_tick]
      constructor
      · rcases hl : loop n body s with a | e' | _
        · simp only [Res.bind_ok]
          rw [h n (by omega) a _ (hi a hl), Finset.sum_range_succ, Nat.add_assoc]
        · simp
        · simp
      · intro s' hs'
        obtain ⟨a, ha, hb⟩ := Res.bind_eq_ok.1 hs'
        exact hs n (by omega) a (hi a ha) s' hb
  exact this.1

/-- A loop whose body counts. -/
theorem loop_tick {n : Nat} {bodyC : Nat → σ × Nat → Res (σ × Nat)} {body : Nat → σ → Res σ} (w : Nat → Nat)
    (h : ∀ i < n, ∀ s k, bodyC i (s, k) = tick (body i s) (k + w i)) (s : σ) (k : Nat) :
    loop n bodyC (s, k) = tick (loop n body s) (k + ∑ i ∈ range n, w i) :=
  loop_tick_inv w (fun _ _ => True) s k trivial (fun _ _ _ _ _ _ => trivial) (fun i hi s k _ => h i hi s k)

/-- A loop whose body always counts the same. -/
theorem loop_tick_const {n : Nat} {bodyC : Nat → σ × Nat → Res (σ × Nat)} {body : Nat → σ → Res σ} {w : Nat}
    (h : ∀ i < n, ∀ s k, bodyC i (s, k) = tick (body i s) (k + w)) (s : σ) (k : Nat) :
    loop n bodyC (s, k) = tick (loop n body s) (k + n * w) := by
  rw [loop_tick (fun _ => w) h]
  simp

end

variable {α : Type _} [CommRing α]

theorem contractC_eq (A B C J : Nat) (t : Buf α) (tof : Nat) (tm : TMode) (add : Bool) (u : Buf α) (uo : Nat) (v : Buf α)
    (vo : Nat) :
    contractC A B C J t tof tm add u uo v vo = tick (Basis.contract A B C J t tof tm add u uo v vo) (2 * A * B * J * C) := by
  have core : ∀ v : Buf α, loop A (fun a v => loop B (fun b v => loop J (fun j v => do
      let tq ← t.rd (tof + (j * (Basis.tStride tm B J).1 + b * (Basis.tStride tm B J).2))
      loop C (fun c (w : Buf α × Nat) => do
        let x ← u.rd (uo + ((a * B + b) * C + c))
        let v ← w.1.addAt (vo + ((a * J + j) * C + c)) (tq * x)
        Res.ok (v, w.2 + 2)) v) v) v) (v, 0) =
      tick (loop A (fun a v => loop B (fun b v => loop J (fun j v => do
      let tq ← t.rd (tof + (j * (Basis.tStride tm B J).1 + b * (Basis.tStride tm B J).2))
      loop C (fun c v => do
        let x ← u.rd (uo + ((a * B + b) * C + c))
        v.addAt (vo + ((a * J + j) * C + c)) (tq * x)) v) v) v) v) (2 * A * B * J * C) := by
    intro v
    rw [loop_tick_const (w := B * (J * (C * 2)))
      (body := fun a v => loop B (fun b v => loop J (fun j v => do
        let tq ← t.rd (tof + (j * (Basis.tStride tm B J).1 + b * (Basis.tStride tm B J).2))
        loop C (fun c v => do
          let x ← u.rd (uo + ((a * B + b) * C + c))
          v.addAt (vo + ((a * J + j) * C + c)) (tq * x)) v) v) v)]
    · congr 1; ring
    intro a _ s k
    refine loop_tick_const (fun b _ s k => loop_tick_const (fun j _ s k => ?_) s k) s k
    rw [tick_bind]
    refine bind_congr' _ fun tq => loop_tick_const (fun c _ s k => ?_) s k
    rw [tick_bind]
    refine bind_congr' _ fun x => ?_
    rfl
  unfold contractC Basis.contract
  dsimp only
  split_ifs
  · exact core v
  · rw [tick_bind]
    exact bind_congr' _ fun v0 => core v0

/-- Operations of `d` contractions in a row. -/
def contractions (dim nc P Q : Nat) : Nat := ∑ d ∈ range dim, 2 * (nc * P ^ (dim - 1 - d)) * P * Q ^ d * Q

theorem pow_step {nc P dim d : Nat} (hP : 0 < P) (hd : d + 1 < dim) :
    nc * P ^ (dim - 1 - d) / P = nc * P ^ (dim - 1 - (d + 1)) := by
  have : dim - 1 - d = dim - 1 - (d + 1) + 1 := by omega
  rw [this, pow_succ, ← Nat.mul_assoc, Nat.mul_div_cancel _ hP]

theorem chainC_eq (dim nc ne P Q size : Nat) (hP : 0 < P) (mat : Nat → Buf α) (tm : TMode) (addLast : Bool)
    (junk : Nat → Nat → α) (u : Buf α) (uo : Nat) (v : Buf α) (vo : Nat) :
    chainC dim nc ne P Q size mat tm addLast junk u uo v vo =
      tick (Basis.chain dim nc ne P Q size mat tm addLast junk u uo v vo) (ne * contractions dim nc P Q) := by
  unfold chainC Basis.chain
  rw [loop_tick_inv (fun d => 2 * (nc * P ^ (dim - 1 - d)) * P * Q * (ne * Q ^ d))
    (fun d (s : Basis.ChainSt α) => d < dim → s.pre = nc * P ^ (dim - 1 - d) ∧ s.post = ne * Q ^ d)
    _ _ (by intro _; simp) (body := fun d (s : Basis.ChainSt α) => do
    let (src, so) := if d = 0 then (u, uo) else if d % 2 = 0 then (s.tmp0, 0) else (s.tmp1, 0)
    let s ←
      if d = dim - 1 then do
        let o ← Basis.contract s.pre P s.post Q (mat d) 0 tm addLast src so s.out vo
        Res.ok { s with out := o }
      else if (d + 1) % 2 = 0 then do
        let o ← Basis.contract s.pre P s.post Q (mat d) 0 tm false src so s.tmp0 0
        Res.ok { s with tmp0 := o }
      else do
        let o ← Basis.contract s.pre P s.post Q (mat d) 0 tm false src so s.tmp1 0
        Res.ok { s with tmp1 := o }
    Res.ok { s with pre := s.pre / P, post := s.post * Q })]
  · rw [bind_tick, tick_bind]
    refine bind_congr' _ fun s => ?_
    simp only [tick_ok, Nat.zero_add, Res.ok.injEq, Prod.mk.injEq, true_and]
    rw [contractions, Finset.mul_sum]
    refine Finset.sum_congr rfl fun d _ => ?_
    ring
  · intro d hd s hI s' hs' hd'
    obtain ⟨h1, h2⟩ := hI hd
    generalize (if d = 0 then (u, uo) else if d % 2 = 0 then (s.tmp0, 0) else (s.tmp1, 0)) = p at hs'
    obtain ⟨src, so⟩ := p
    dsimp only at hs'
    split_ifs at hs' <;>
    · obtain ⟨o, _, ho⟩ := Res.bind_eq_ok.1 hs'
      cases ho
      dsimp only
      rw [h1, h2]
      exact ⟨pow_step hP hd', by rw [pow_succ, Nat.mul_assoc]⟩
  · intro d hd s k hI
    obtain ⟨h1, h2⟩ := hI hd
    generalize hp : (if d = 0 then (u, uo) else if d % 2 = 0 then (s.tmp0, 0) else (s.tmp1, 0)) = p
    obtain ⟨src, so⟩ := p
    simp only [hp, contractC_eq]
    split_ifs <;>
    · simp only [bind_tick, tick_bind, Res.bind_ok, tick_ok]
      refine bind_congr' _ fun o => ?_
      rw [h1, h2]

theorem sweepC_eq (dim nc ne P Q : Nat) (hP : 0 < P) (mat : Buf α) (tm : TMode) (add : Nat → Bool) (u : Buf α)
    (uo : Nat → Nat) (v : Buf α) (vo : Nat → Nat) :
    sweepC dim nc ne P Q mat tm add u uo v vo =
      tick (Basis.sweep dim nc ne P Q mat tm add u uo v vo) (ne * contractions dim nc P Q) := by
  unfold sweepC Basis.sweep
  rw [loop_tick_inv (fun d => 2 * (nc * P ^ (dim - 1 - d)) * P * Q * (ne * Q ^ d))
    (fun d (s : Nat × Nat × Buf α) => d < dim → s.1 = nc * P ^ (dim - 1 - d) ∧ s.2.1 = ne * Q ^ d)
    _ _ (by intro _; simp) (body := fun d (s : Nat × Nat × Buf α) => do
    let v ← Basis.contract s.1 P s.2.1 Q mat 0 tm (add d) u (uo d) s.2.2 (vo d)
    Res.ok (s.1 / P, s.2.1 * Q, v))]
  · rw [bind_tick, tick_bind]
    refine bind_congr' _ fun s => ?_
    simp only [tick_ok, Nat.zero_add, Res.ok.injEq, Prod.mk.injEq, true_and]
    rw [contractions, Finset.mul_sum]
    refine Finset.sum_congr rfl fun d _ => ?_
    ring
  · intro d hd s hI s' hs' hd'
    obtain ⟨h1, h2⟩ := hI hd
    obtain ⟨a, ha, hb⟩ := Res.bind_eq_ok.1 hs'
    cases hb
    dsimp only
    rw [h1, h2]
    exact ⟨pow_step hP hd', by rw [pow_succ, Nat.mul_assoc]⟩
  · intro d hd s k hI
    obtain ⟨h1, h2⟩ := hI hd
    simp only [contractC_eq]
    simp only [bind_tick, tick_bind, tick_ok, h1, h2]

/-- The number of operations of an interpolation with a tensor basis. -/
def interpCount (b : Bas α) (ne : Nat) (tm : TMode) : Nat :=
  if b.colloInterp then 0 else match tm with
    | .noTranspose => ne * contractions b.dim b.nc b.P1 b.Q1
    | .transpose => ne * contractions b.dim b.nc b.Q1 b.P1

theorem tensorInterpC_eq {b : Bas α} (hP : 0 < b.P1) (hQ : 0 < b.Q1) (junk : Nat → Nat → α) (add : Bool) (ne : Nat)
    (tm : TMode) (u v : Buf α) :
    tensorInterpC b junk add ne tm u v = tick (Basis.tensorInterp b junk add ne tm u v) (interpCount b ne tm) := by
  unfold tensorInterpC Basis.tensorInterp interpCount
  split_ifs
  · rfl
  · cases tm
    · exact chainC_eq _ _ _ _ _ _ hP _ _ _ _ _ _ _ _
    · exact chainC_eq _ _ _ _ _ _ hQ _ _ _ _ _ _ _ _

/-- The number of operations of a gradient with a tensor basis. -/
def gradCount (b : Bas α) (ne : Nat) (tm : TMode) : Nat :=
  if b.colloGrad.isSome then match tm with
    | .noTranspose => ne * contractions b.dim b.nc b.P1 b.Q1 + ne * contractions b.dim b.nc b.Q1 b.Q1
    | .transpose => ne * contractions b.dim b.nc b.Q1 b.Q1 + ne * contractions b.dim b.nc b.Q1 b.P1
  else if b.colloInterp then match tm with
    | .noTranspose => ne * contractions b.dim b.nc b.P1 b.Q1
    | .transpose => ne * contractions b.dim b.nc b.Q1 b.Q1
  else match tm with
    | .noTranspose => b.dim * (ne * contractions b.dim b.nc b.P1 b.Q1)
    | .transpose => b.dim * (ne * contractions b.dim b.nc b.Q1 b.P1)

theorem tensorGradC_eq {b : Bas α} (hP : 0 < b.P1) (hQ : 0 < b.Q1) (junk : Nat → Nat → α) (applyAdd add : Bool) (ne : Nat)
    (tm : TMode) (u v : Buf α) :
    tensorGradC b junk applyAdd add ne tm u v =
      tick (Basis.tensorGrad b junk applyAdd add ne tm u v) (gradCount b ne tm) := by
  unfold tensorGradC Basis.tensorGrad gradCount
  cases hc : b.colloGrad with
  | some cg =>
    cases tm
    · simp only [Option.isSome_some, if_true]
      rw [chainC_eq _ _ _ _ _ _ hP, bind_tick, tick_bind]
      refine bind_congr' _ fun i => ?_
      rw [sweepC_eq _ _ _ _ _ hQ, bind_tick]
      rfl
    · simp only [Option.isSome_some, if_true]
      rw [sweepC_eq _ _ _ _ _ hQ, bind_tick, tick_bind]
      refine bind_congr' _ fun i => ?_
      rw [chainC_eq _ _ _ _ _ _ hQ, bind_tick]
      rfl
  | none =>
    simp only [Option.isSome_none, Bool.false_eq_true, if_false]
    split_ifs
    · cases tm
      · exact sweepC_eq _ _ _ _ _ hP _ _ _ _ _ _ _
      · exact sweepC_eq _ _ _ _ _ hQ _ _ _ _ _ _ _
    · cases tm
      · rw [loop_tick_const (w := ne * contractions b.dim b.nc b.P1 b.Q1) (body := fun p v =>
          Basis.chain b.dim b.nc ne b.P1 b.Q1 (Basis.tmpSize b ne b.P1 b.Q1)
            (fun d => if p = d then b.grad1 else b.interp1) .noTranspose add junk u 0 v (p * (b.nc * b.Q * ne)))]
        · simp only [Nat.zero_add]
        · intro p _ s k
          dsimp only
          rw [chainC_eq _ _ _ _ _ _ hP, bind_tick]
          rfl
      · rw [loop_tick_const (w := ne * contractions b.dim b.nc b.Q1 b.P1) (body := fun p v =>
          Basis.chain b.dim b.nc ne b.Q1 b.P1 (Basis.tmpSize b ne b.Q1 b.P1)
            (fun d => if p = d then b.grad1 else b.interp1) .transpose add junk u (p * (b.nc * b.Q * ne)) v 0)]
        · simp only [Nat.zero_add]
        · intro p _ s k
          dsimp only
          rw [chainC_eq _ _ _ _ _ _ hQ, bind_tick]
          rfl

theorem tensorWeightC_eq (b : Bas α) (ne : Nat) (v : Buf α) :
    tensorWeightC b ne v = tick (Basis.tensorWeight b ne v) (b.dim * b.Q1 ^ b.dim) := by
  unfold tensorWeightC Basis.tensorWeight
  rw [loop_tick (fun _ => b.Q1 ^ b.dim) (body := fun d v =>
    loop (b.Q1 ^ (b.dim - d - 1)) (fun i v => loop b.Q1 (fun j v => loop (b.Q1 ^ d) (fun k v => do
      let x ← b.qWeight.rd j
      let y ← if d = 0 then Res.ok 1 else v.rd (((i * b.Q1 + j) * b.Q1 ^ d + k) * ne)
      loop ne (fun e v => v.wr (((i * b.Q1 + j) * b.Q1 ^ d + k) * ne + e) (x * y)) v) v) v) v)]
  · simp
  · intro d hd s k
    dsimp only
    have e : b.Q1 ^ b.dim = b.Q1 ^ (b.dim - d - 1) * (b.Q1 * (b.Q1 ^ d * 1)) := by
      rw [Nat.mul_one, ← pow_succ', ← pow_add]
      congr 1; omega
    rw [e]
    refine loop_tick_const (fun i _ s k => loop_tick_const (fun j _ s k => loop_tick_const (fun l _ s k => ?_) s k) s k) s k
    rw [tick_bind]
    refine bind_congr' _ fun x => ?_
    split_ifs
    · rfl
    · rw [tick_bind]
      refine bind_congr' _ fun y => ?_
      rfl

theorem contractStridedC_eq (A B C D J : Nat) (t : Buf α) (tm : TMode) (add : Bool) (u v : Buf α) :
    contractStridedC A B C D J t tm add u v =
      tick (Basis.contractStrided A B C D J t tm add u v) (D * (2 * A * B * J * C)) := by
  unfold contractStridedC Basis.contractStrided
  cases tm
  · dsimp only
    rw [loop_tick_const (w := 2 * A * B * J * C)
      (body := fun d v => Basis.contract A B C J t (d * B * J) .noTranspose add u 0 v (d * A * J * C))]
    · simp
    · intro d _ s k
      rw [contractC_eq, bind_tick]
      rfl
  · dsimp only
    rw [loop_tick_const (w := 2 * A * B * J * C)
      (body := fun d v => Basis.contract A J C B t (d * B * J) .transpose add u (d * A * J * C) v 0)]
    · simp
    · intro d _ s k
      rw [contractC_eq, bind_tick]
      have : 2 * A * J * B * C = 2 * A * B * J * C := by ring
      rw [this]
      rfl

/-- The number of operations of the application of a basis. -/
def basisCount (b : Bas α) (ne : Nat) (tm : TMode) (em : EMode) : Nat :=
  if b.isTensor then match em with
    | .interp => interpCount b ne tm
    | .grad => gradCount b ne tm
    | .weight => b.dim * b.Q1 ^ b.dim
    | .none => 0
    | .div => 0
    | .curl => 0
  else match em with
    | .none => 0
    | .interp => b.qComp .interp * (2 * b.nc * b.P * b.Q * ne)
    | .grad => b.qComp .grad * (2 * b.nc * b.P * b.Q * ne)
    | .div => b.qComp .div * (2 * b.nc * b.P * b.Q * ne)
    | .curl => b.qComp .curl * (2 * b.nc * b.P * b.Q * ne)
    | .weight => 0

theorem applyCoreC_eq {b : Bas α} (hb : b.isTensor = true → 0 < b.P1 ∧ 0 < b.Q1) (junk : Nat → Nat → α) (applyAdd : Bool)
    (ne : Nat) (tm : TMode) (em : EMode) (u : Option (Buf α)) (v : Buf α) :
    applyCoreC b junk applyAdd ne tm em u v =
      tick (Basis.applyCore b junk applyAdd ne tm em u v) (basisCount b ne tm em) := by
  have core : ∀ (add : Bool) (u v : Buf α),
      (if b.isTensor then
        match em with
        | .interp => tensorInterpC b junk add ne tm u v
        | .grad => tensorGradC b junk applyAdd add ne tm u v
        | .weight => do
          Res.check (tm = .noTranspose) .backend
          tensorWeightC b ne v
        | _ => .err .backend
      else
        match em with
        | .interp => do
          let m ← Basis.getInterp b
          let m ← Basis.deref m
          contractStridedC b.nc b.P ne (b.qComp em) b.Q m tm add u v
        | .grad => do
          let m ← Basis.getGrad b
          let m ← Basis.deref m
          contractStridedC b.nc b.P ne (b.qComp em) b.Q m tm add u v
        | .div => do
          let m ← Basis.deref b.div
          contractStridedC b.nc b.P ne (b.qComp em) b.Q m tm add u v
        | .curl => do
          let m ← Basis.deref b.curl
          contractStridedC b.nc b.P ne (b.qComp em) b.Q m tm add u v
        | .weight => do
          Res.check (tm = .noTranspose) .backend
          let v ← loop b.Q (fun i v => loop ne (fun e v => do
            let w ← b.qWeight.rd i
            v.wr (i * ne + e) w) v) v
          Res.ok (v, 0)
        | .none => .err .backend) =
      tick (if b.isTensor then
        match em with
        | .interp => Basis.tensorInterp b junk add ne tm u v
        | .grad => Basis.tensorGrad b junk applyAdd add ne tm u v
        | .weight => do
          Res.check (tm = .noTranspose) .backend
          Basis.tensorWeight b ne v
        | _ => .err .backend
      else
        match em with
        | .interp => do
          let m ← Basis.getInterp b
          let m ← Basis.deref m
          Basis.contractStrided b.nc b.P ne (b.qComp em) b.Q m tm add u v
        | .grad => do
          let m ← Basis.getGrad b
          let m ← Basis.deref m
          Basis.contractStrided b.nc b.P ne (b.qComp em) b.Q m tm add u v
        | .div => do
          let m ← Basis.deref b.div
          Basis.contractStrided b.nc b.P ne (b.qComp em) b.Q m tm add u v
        | .curl => do
          let m ← Basis.deref b.curl
          Basis.contractStrided b.nc b.P ne (b.qComp em) b.Q m tm add u v
        | .weight => do
          Res.check (tm = .noTranspose) .backend
          loop b.Q (fun i v => loop ne (fun e v => do
            let w ← b.qWeight.rd i
            v.wr (i * ne + e) w) v) v
        | .none => .err .backend) (basisCount b ne tm em) := by
    intro add u v
    unfold basisCount
    by_cases ht : b.isTensor = true
    · obtain ⟨hP, hQ⟩ := hb ht
      simp only [ht, if_true]
      cases em <;> dsimp only
      · rfl
      · exact tensorInterpC_eq hP hQ _ _ _ _ _ _
      · exact tensorGradC_eq hP hQ _ _ _ _ _ _ _
      · rfl
      · rfl
      · rw [tick_bind]
        exact bind_congr' _ fun _ => tensorWeightC_eq _ _ _
    · simp only [ht, Bool.false_eq_true, if_false]
      cases em <;> dsimp only
      · rfl
      · simp only [tick_bind, contractStridedC_eq]
      · simp only [tick_bind, contractStridedC_eq]
      · simp only [tick_bind, contractStridedC_eq]
      · simp only [tick_bind, contractStridedC_eq]
      · simp only [tick_bind]
        rfl
  unfold applyCoreC Basis.applyCore
  dsimp only
  rw [tick_bind]
  refine bind_congr' _ fun _ => ?_
  by_cases hz : tm = .transpose ∧ applyAdd = false
  · rw [if_pos hz, if_pos hz, tick_bind]
    exact bind_congr' _ fun v0 => core _ _ v0
  · rw [if_neg hz, if_neg hz]
    exact core _ _ v

end Flops
end Verif
