import Verif.Gpu.BasisLaunch
import Verif.Gpu.BasisWeight
import Verif.Gpu.BasisSpec
import Verif.Basis.Lift

/-!
# Application of a basis on a device (helper lemmas)
-/

namespace Verif.Gpu
open Finset
open Verif.Restriction (TMode copyIn copyIn_ok)
open Verif.Basis (Bas EMode Space kron TensorOK getInterp getGrad getInterp_tensor getGrad_tensor)

variable {α : Type} [CommRing α]

theorem Runs.mono {G B : Nat} {c : Cfg α} {Q Q' : Vals α → Prop} (h : Runs G B c Q) (hQ : ∀ s, Q s → Q' s) : Runs G B c Q' :=
  ⟨h.safe, h.ends, h.progress, fun c hc hf => hQ _ (h.result c hc hf)⟩

/-! ## Calls -/

section
variable {dv : Device} {junk : Vals α} {x : DBas α} {ne : Nat} {em : EMode} {u v : Buf α}

theorem applyDev_nt (hem : em ≠ .weight) (hu : ne * x.bas.nc * x.bas.P ≤ u.len)
    (hv : ne * x.bas.Q * x.bas.nc * x.bas.qComp em ≤ v.len) :
    applyDev dv junk x ne .noTranspose em (some u) v = if x.bas.isTensor
      then applyTensorDev dv junk x false ne .noTranspose em (some u) v
      else applyNonTensorDev dv junk x false ne .noTranspose em (some u) v := by
  unfold applyDev Basis.checkDims
  rw [Res.check_true]
  · rfl
  · cases em <;> simp_all

theorem applyDev_t (hem : em ≠ .weight) (hu : ne * x.bas.nc * x.bas.Q * x.bas.qComp em ≤ u.len)
    (hv : ne * x.bas.nc * x.bas.P ≤ v.len) :
    applyDev dv junk x ne .transpose em (some u) v = if x.bas.isTensor
      then applyTensorDev dv junk x false ne .transpose em (some u) v
      else applyNonTensorDev dv junk x false ne .transpose em (some u) v := by
  unfold applyDev Basis.checkDims
  rw [Res.check_true]
  · rfl
  · cases em <;> simp_all

theorem applyAddDev_t (hem : em ≠ .weight) (hu : ne * x.bas.nc * x.bas.Q * x.bas.qComp em ≤ u.len)
    (hv : ne * x.bas.nc * x.bas.P ≤ v.len) :
    applyAddDev dv junk x ne .transpose em (some u) v = if x.bas.isTensor
      then applyTensorDev dv junk x true ne .transpose em (some u) v
      else applyNonTensorDev dv junk x true ne .transpose em (some u) v := by
  unfold applyAddDev Basis.checkDims
  rw [Res.check_true rfl, Res.bind_ok, Res.check_true]
  · rfl
  · cases em <;> simp_all

theorem runDev_ok {grid block : Nat} {kern : Nat → Nat → K α Unit} {m : Mem α} (hg : 0 < grid)
    (hb : block ≤ dv.maxThreads) : runDev dv grid block kern m = .ok ⟨grid, block, launch kern m⟩ := by
  unfold runDev
  rw [if_neg]
  push Not
  exact ⟨by omega, hb⟩

end

/-! ## Tensor bases -/

/-- What `CeedBasisCreateTensorH1` guarantees about its result. -/
structure TOK (x : DBas α) (i1 g1 : Buf α) (w : Option (Buf α)) : Prop where
  tensor : x.bas.isTensor = true
  h1 : x.bas.isH1 = true
  dim : 0 < x.bas.dim
  nc : 0 < x.bas.nc
  P1 : 0 < x.bas.P1
  Q1 : 0 < x.bas.Q1
  P : x.bas.P = x.bas.P1 ^ x.bas.dim
  Q : x.bas.Q = x.bas.Q1 ^ x.bas.dim
  i1 : x.bas.interp1 = ⟨x.bas.Q1 * x.bas.P1, i1.val⟩
  g1 : x.bas.grad1 = ⟨x.bas.Q1 * x.bas.P1, g1.val⟩
  interp : x.bas.interp = none
  grad : x.bas.grad = none
  colloI : x.bas.colloInterp = false
  colloG : x.bas.colloGrad = none
  w : x.weights = w.map fun w => ⟨x.bas.Q1, w.val⟩

omit [CommRing α] in
theorem copyOpt_ok {w w' : Option (Buf α)} {n : Nat} (h : copyOpt w n = .ok w') : w' = w.map fun w => ⟨n, w.val⟩ := by
  cases w with
  | none =>
    injection h with h
    exact h.symm
  | some w =>
    unfold copyOpt at h
    simp only [Res.bind_eq_ok] at h
    obtain ⟨y, hy, h⟩ := h
    injection h with h
    obtain ⟨-, rfl⟩ := copyIn_ok hy
    exact h.symm

theorem tok_of {x : DBas α} {i1 g1 : Buf α} {w : Option (Buf α)} (h : DevTensorBasis x i1 g1 w) : TOK x i1 g1 w := by
  obtain ⟨dim, nc, P1, Q1, h⟩ := h
  unfold createTensorDev at h
  simp only [Res.bind_eq_ok, Res.check_eq_ok] at h
  obtain ⟨_, h1, _, h2, _, h3, _, h4, w', hw, i1', hi, g1', hg, h⟩ := h
  obtain ⟨_, rfl⟩ := copyIn_ok hi
  obtain ⟨_, rfl⟩ := copyIn_ok hg
  have hw' := copyOpt_ok hw
  injection h with h
  subst h
  exact ⟨rfl, rfl, by show 0 < dim.toNat; omega, by show 0 < nc.toNat; omega, by show 0 < P1.toNat; omega,
    by show 0 < Q1.toNat; omega, rfl, rfl, rfl, rfl, rfl, rfl, rfl, rfl, hw'⟩

section
variable {x : DBas α} {i1 g1 : Buf α} {w : Option (Buf α)}

/-- The basis without its weights meets the conditions on host bases. -/
theorem TOK.host (hx : TOK x i1 g1 w) : TensorOK { x.bas with qWeight := ⟨x.bas.Q1, fun _ => 0⟩ } where
  tensor := hx.tensor
  h1 := hx.h1
  dim := hx.dim
  nc := hx.nc
  P1 := hx.P1
  Q1 := hx.Q1
  hP := hx.P
  hQ := hx.Q
  interp1 := by show x.bas.interp1.len = _; rw [hx.i1]
  grad1 := by show x.bas.grad1.len = _; rw [hx.g1]
  weight := rfl
  interp := hx.interp
  grad := hx.grad
  colloI h := by
    have h : x.bas.colloInterp = true := h
    rw [hx.colloI] at h
    cases h
  colloG cg h := by
    have h : x.bas.colloGrad = some cg := h
    rw [hx.colloG] at h
    cases h

theorem TOK.getInterp (hx : TOK x i1 g1 w) : ∃ m, getInterp x.bas = .ok (some m) ∧
    ∀ q < x.bas.Q, ∀ n < x.bas.P, m.val (q * x.bas.P + n) =
      kron (fun _ q n => i1.val (q * x.bas.P1 + n)) x.bas.Q1 x.bas.P1 x.bas.dim q n := by
  obtain ⟨m, h1, -, h2⟩ := getInterp_tensor hx.host
  refine ⟨m, h1, fun q hq n hn => (h2 q hq n hn).trans ?_⟩
  show kron (fun _ q n => x.bas.interp1.val (q * x.bas.P1 + n)) _ _ _ _ _ = _
  rw [hx.i1]

theorem TOK.getGrad (hx : TOK x i1 g1 w) : ∃ m, getGrad x.bas = .ok (some m) ∧
    ∀ c < x.bas.dim, ∀ q < x.bas.Q, ∀ n < x.bas.P, m.val ((c * x.bas.Q + q) * x.bas.P + n) =
      kron (fun d q n => (if c = d then g1 else i1).val (q * x.bas.P1 + n)) x.bas.Q1 x.bas.P1 x.bas.dim q n := by
  obtain ⟨m, h1, -, h2⟩ := getGrad_tensor hx.host
  refine ⟨m, h1, fun c hc q hq n hn => (h2 c hc q hq n hn).trans ?_⟩
  unfold Bas.KG kron
  refine Finset.prod_congr rfl fun d _ => ?_
  by_cases h : c = d
  · simp only [if_pos h]
    show x.bas.grad1.val _ = _
    rw [hx.g1]
  · simp only [if_neg h]
    show x.bas.interp1.val _ = _
    rw [hx.i1]

theorem TOK.mem (hx : TOK x i1 g1 w) {ne nd : Nat} {tr : Bool} {junk : Vals α} {u v : Buf α}
    (hu : (if tr then nd * (x.bas.nc * ne) * x.bas.Q1 ^ x.bas.dim else x.bas.nc * ne * x.bas.P1 ^ x.bas.dim) ≤ u.len)
    (hv : (if tr then x.bas.nc * ne * x.bas.P1 ^ x.bas.dim else nd * (x.bas.nc * ne) * x.bas.Q1 ^ x.bas.dim) ≤ v.len) :
    TMem x.bas.dim x.bas.nc x.bas.P1 x.bas.Q1 ne nd tr
      (memBasis (x.bas.Q1 * x.bas.P1) (bufLenDev x.bas) junk x.bas.interp1 x.bas.grad1 u v) := by
  have hb : x.bas.Q1 * max x.bas.P1 x.bas.Q1 ^ (x.bas.dim - 1) ≤ bufLenDev x.bas := by
    unfold bufLenDev
    rw [show max x.bas.P1 x.bas.Q1 = if x.bas.Q1 > x.bas.P1 then x.bas.Q1 else x.bas.P1 by split <;> omega]
  exact ⟨by show _ ≤ x.bas.interp1.len; rw [hx.i1], by show _ ≤ x.bas.grad1.len; rw [hx.g1], fun _ => le_refl _,
    fun _ => le_refl _, fun _ => hb, fun _ => hb, hu, hv⟩

theorem TOK.tabI (hx : TOK x i1 g1 w) (junk : Vals α) (u v : Buf α) (c d q n : Nat) :
    tabI x.bas.P1 (memBasis (x.bas.Q1 * x.bas.P1) (bufLenDev x.bas) junk x.bas.interp1 x.bas.grad1 u v) c d q n =
      i1.val (q * x.bas.P1 + n) := by
  show x.bas.interp1.val _ = _
  rw [hx.i1]

theorem TOK.tabG (hx : TOK x i1 g1 w) (junk : Vals α) (u v : Buf α) (c d q n : Nat) :
    tabG x.bas.P1 (memBasis (x.bas.Q1 * x.bas.P1) (bufLenDev x.bas) junk x.bas.interp1 x.bas.grad1 u v) c d q n =
      (if c = d then g1 else i1).val (q * x.bas.P1 + n) := by
  unfold Gpu.tabG
  by_cases hcd : c = d
  · rw [if_pos hcd, if_pos hcd]
    show x.bas.grad1.val _ = _
    rw [hx.g1]
  · rw [if_neg hcd, if_neg hcd]
    show x.bas.interp1.val _ = _
    rw [hx.i1]

theorem quadPosG_eq (nc Q ne c k q e : Nat) : (e + c * (nc * ne) + k * ne) * Q + q = quadPosG nc Q ne c k q e := by
  unfold quadPosG
  ring

theorem gPos_eq (ne P e k n : Nat) : (e + k * ne) * P + n = gPos ne P e k n := by
  unfold gPos
  ring

theorem min_le_max {a b : Nat} : min a b ≤ b := Nat.min_le_right a b

end

section
variable {x : DBas α} {i1 g1 : Buf α} {w : Option (Buf α)} {dv : Device} {m : Buf α}

theorem TOK.mul_interp (hx : TOK x i1 g1 w) (hd : 0 < dv.maxBlock) (hd' : dv.maxBlock ≤ dv.maxThreads)
    (hm : ∀ q < x.bas.Q, ∀ n < x.bas.P, m.val (q * x.bas.P + n) =
      kron (fun _ q n => i1.val (q * x.bas.P1 + n)) x.bas.Q1 x.bas.P1 x.bas.dim q n) : MulByG dv x .interp m := by
  intro junk ne u v hne hu hv
  have hqc : x.bas.qComp .interp = 1 := by simp [Bas.qComp, hx.h1]
  rw [applyDev_nt (by simp) hu hv, hx.tensor, if_pos rfl]
  rw [hqc] at hv ⊢
  have hB : 0 < min (x.bas.Q1 ^ x.bas.dim) dv.maxBlock := Nat.lt_min.mpr ⟨Nat.pow_pos hx.Q1, hd⟩
  have hmem : TMem x.bas.dim x.bas.nc x.bas.P1 x.bas.Q1 ne 1 false
      (memBasis (x.bas.Q1 * x.bas.P1) (bufLenDev x.bas) junk x.bas.interp1 x.bas.grad1 u v) := by
    refine hx.mem ?_ ?_
    · show _ * _ * _ ≤ _
      rw [← hx.P, Nat.mul_comm x.bas.nc]
      exact hu
    · show _ * _ * _ ≤ _
      rw [← hx.Q, show 1 * (x.bas.nc * ne) * x.bas.Q = ne * x.bas.Q * x.bas.nc * 1 by ring]
      exact hv
  have hr := runs_set (tkI_ok hne hB hx.dim hx.P1 hx.Q1 hmem) rfl rfl
    (fun b _ t _ => interpKernel_eq hx.P1 hx.Q1 false ne _ b t)
  refine ⟨⟨ne, min (x.bas.Q1 ^ x.bas.dim) dv.maxBlock, _⟩, runDev_ok hne (min_le_max.trans hd'), hr.mono fun s hs => ?_⟩
  obtain ⟨h1, h2, h3⟩ := hs
  refine ⟨fun c hc k hk q hq e he => ?_, fun i hi => h2 i ?_, h3⟩
  · rw [hx.Q] at hq
    have h := h1 e he k hk c hc q hq
    rw [← quadPosG_eq, hx.Q]
    refine h.trans ?_
    unfold rowTimesG
    rw [hx.P]
    refine Finset.sum_congr rfl fun n hn => ?_
    have hn := Finset.mem_range.mp hn
    obtain rfl : c = 0 := by omega
    have hmv := hm q (by rw [hx.Q]; exact hq) n (by rw [hx.P]; exact hn)
    rw [hx.P] at hmv
    rw [show (0 * x.bas.Q + q) * x.bas.P1 ^ x.bas.dim + n = q * x.bas.P1 ^ x.bas.dim + n by ring, hmv, ← gPos_eq]
    exact congrArg₂ (· * ·) (Finset.prod_congr rfl fun d _ => hx.tabI junk u v 0 d _ _) rfl
  · show 1 * (x.bas.nc * ne) * x.bas.Q1 ^ x.bas.dim ≤ i
    rw [← hx.Q, show 1 * (x.bas.nc * ne) * x.bas.Q = 1 * x.bas.nc * x.bas.Q * ne by ring]
    exact hi

/-- Both transposed modes: `v0` is what `v` contains before the launch. -/
theorem TOK.mulT_interp (hx : TOK x i1 g1 w) (hd : 0 < dv.maxBlock) (hd' : dv.maxBlock ≤ dv.maxThreads)
    (hm : ∀ q < x.bas.Q, ∀ n < x.bas.P, m.val (q * x.bas.P + n) =
      kron (fun _ q n => i1.val (q * x.bas.P1 + n)) x.bas.Q1 x.bas.P1 x.bas.dim q n)
    (junk : Vals α) {ne : Nat} {u v : Buf α} (hne : 0 < ne) (hu : ne * x.bas.nc * x.bas.Q ≤ u.len)
    (hv : ne * x.bas.nc * x.bas.P ≤ v.len) (add : Bool) :
    Launches (applyTensorDev dv junk x add ne .transpose .interp (some u) v) fun s =>
      (∀ k < x.bas.nc, ∀ n < x.bas.P, ∀ e < ne, s .v (gPos ne x.bas.P e k n) =
        (if add then v.val (gPos ne x.bas.P e k n) else 0) + colTimesG x.bas 1 ne m u.val k n e) ∧
      (∀ i, x.bas.nc * x.bas.P * ne ≤ i → s .v i = if add then v.val i else 0) ∧ s .u = u.val := by
  have hB : 0 < min (x.bas.Q1 ^ x.bas.dim) dv.maxBlock := Nat.lt_min.mpr ⟨Nat.pow_pos hx.Q1, hd⟩
  have key : ∀ v : Buf α, ne * x.bas.nc * x.bas.P ≤ v.len → Launches (runDev dv ne (min (x.bas.Q1 ^ x.bas.dim) dv.maxBlock)
      (interpKernel x.bas.dim x.bas.nc x.bas.P1 x.bas.Q1 ne true ne (min (x.bas.Q1 ^ x.bas.dim) dv.maxBlock))
      (memBasis (x.bas.Q1 * x.bas.P1) (bufLenDev x.bas) junk x.bas.interp1 x.bas.grad1 u v)) fun s =>
      (∀ k < x.bas.nc, ∀ n < x.bas.P, ∀ e < ne, s .v (gPos ne x.bas.P e k n) =
        v.val (gPos ne x.bas.P e k n) + colTimesG x.bas 1 ne m u.val k n e) ∧
      (∀ i, x.bas.nc * x.bas.P * ne ≤ i → s .v i = v.val i) ∧ s .u = u.val := by
    intro v hv
    have hmem : TMem x.bas.dim x.bas.nc x.bas.P1 x.bas.Q1 ne 1 true
        (memBasis (x.bas.Q1 * x.bas.P1) (bufLenDev x.bas) junk x.bas.interp1 x.bas.grad1 u v) := by
      refine hx.mem ?_ ?_
      · show _ * _ * _ ≤ _
        rw [← hx.Q, show 1 * (x.bas.nc * ne) * x.bas.Q = ne * x.bas.nc * x.bas.Q by ring]
        exact hu
      · show _ * _ * _ ≤ _
        rw [← hx.P, Nat.mul_comm x.bas.nc]
        exact hv
    have hr := runs_add (tkIT_ok hne hB hx.dim hx.P1 hx.Q1 hmem) rfl rfl
      (fun b _ t _ => interpKernel_eq hx.P1 hx.Q1 true ne _ b t)
    refine ⟨⟨ne, min (x.bas.Q1 ^ x.bas.dim) dv.maxBlock, _⟩, runDev_ok hne (min_le_max.trans hd'), hr.mono fun s hs => ?_⟩
    obtain ⟨h1, h2, h3⟩ := hs
    refine ⟨fun k hk n hn e he => ?_, fun i hi => h2 i ?_, h3⟩
    · rw [hx.P] at hn
      have h := h1 e he k hk n hn
      rw [← gPos_eq, hx.P]
      refine h.trans (congrArg₂ (· + ·) rfl ?_)
      unfold colTimesG
      refine Finset.sum_congr rfl fun c hc => ?_
      have hc := Finset.mem_range.mp hc
      obtain rfl : c = 0 := by
        have : c < 1 := hc
        omega
      rw [hx.Q]
      refine Finset.sum_congr rfl fun q hq => ?_
      have hq := Finset.mem_range.mp hq
      have hmv := hm q (by rw [hx.Q]; exact hq) n (by rw [hx.P]; exact hn)
      rw [show (0 * x.bas.Q1 ^ x.bas.dim + q) * x.bas.P + n = q * x.bas.P + n by ring, hmv, ← quadPosG_eq]
      exact congrArg₂ (· * ·) (Finset.prod_congr rfl fun d _ => hx.tabI junk u v 0 d _ _) rfl
    · show x.bas.nc * ne * x.bas.P1 ^ x.bas.dim ≤ i
      rw [← hx.P, show x.bas.nc * ne * x.bas.P = x.bas.nc * x.bas.P * ne by ring]
      exact hi
  cases add
  · exact key ⟨v.len, fun _ => 0⟩ hv
  · exact key v hv

theorem TOK.mul_grad (hx : TOK x i1 g1 w) (hd : 0 < dv.maxBlock) (hd' : dv.maxBlock ≤ dv.maxThreads)
    (hm : ∀ c < x.bas.dim, ∀ q < x.bas.Q, ∀ n < x.bas.P, m.val ((c * x.bas.Q + q) * x.bas.P + n) =
      kron (fun d q n => (if c = d then g1 else i1).val (q * x.bas.P1 + n)) x.bas.Q1 x.bas.P1 x.bas.dim q n) :
    MulByG dv x .grad m := by
  intro junk ne u v hne hu hv
  rw [applyDev_nt (by simp) hu hv, hx.tensor, if_pos rfl]
  have hmem : TMem x.bas.dim x.bas.nc x.bas.P1 x.bas.Q1 ne x.bas.dim false
      (memBasis (x.bas.Q1 * x.bas.P1) (bufLenDev x.bas) junk x.bas.interp1 x.bas.grad1 u v) := by
    refine hx.mem ?_ ?_
    · show _ * _ * _ ≤ _
      rw [← hx.P, Nat.mul_comm x.bas.nc]
      exact hu
    · show _ * _ * _ ≤ _
      rw [← hx.Q, show x.bas.dim * (x.bas.nc * ne) * x.bas.Q = ne * x.bas.Q * x.bas.nc * x.bas.dim by ring]
      exact hv
  have hr := runs_set (tkG_ok hne hd hx.dim hx.P1 hx.Q1 hmem) rfl rfl
    (fun b _ t _ => gradKernel_eq hx.P1 hx.Q1 false ne _ b t)
  refine ⟨⟨ne, dv.maxBlock, _⟩, runDev_ok hne hd', hr.mono fun s hs => ?_⟩
  obtain ⟨h1, h2, h3⟩ := hs
  refine ⟨fun c hc k hk q hq e he => ?_, fun i hi => h2 i ?_, h3⟩
  · rw [hx.Q] at hq
    have h := h1 e he k hk c hc q hq
    rw [← quadPosG_eq, hx.Q]
    refine h.trans ?_
    unfold rowTimesG
    rw [hx.P]
    refine Finset.sum_congr rfl fun n hn => ?_
    have hn := Finset.mem_range.mp hn
    have hmv := hm c hc q (by rw [hx.Q]; exact hq) n (by rw [hx.P]; exact hn)
    rw [hx.P] at hmv
    rw [hmv, ← gPos_eq]
    exact congrArg₂ (· * ·) (Finset.prod_congr rfl fun d _ => hx.tabG junk u v c d _ _) rfl
  · show x.bas.dim * (x.bas.nc * ne) * x.bas.Q1 ^ x.bas.dim ≤ i
    rw [← hx.Q, show x.bas.dim * (x.bas.nc * ne) * x.bas.Q = x.bas.dim * x.bas.nc * x.bas.Q * ne by ring]
    exact hi

theorem TOK.mulT_grad (hx : TOK x i1 g1 w) (hd : 0 < dv.maxBlock) (hd' : dv.maxBlock ≤ dv.maxThreads)
    (hm : ∀ c < x.bas.dim, ∀ q < x.bas.Q, ∀ n < x.bas.P, m.val ((c * x.bas.Q + q) * x.bas.P + n) =
      kron (fun d q n => (if c = d then g1 else i1).val (q * x.bas.P1 + n)) x.bas.Q1 x.bas.P1 x.bas.dim q n)
    (junk : Vals α) {ne : Nat} {u v : Buf α} (hne : 0 < ne) (hu : ne * x.bas.nc * x.bas.Q * x.bas.dim ≤ u.len)
    (hv : ne * x.bas.nc * x.bas.P ≤ v.len) (add : Bool) :
    Launches (applyTensorDev dv junk x add ne .transpose .grad (some u) v) fun s =>
      (∀ k < x.bas.nc, ∀ n < x.bas.P, ∀ e < ne, s .v (gPos ne x.bas.P e k n) =
        (if add then v.val (gPos ne x.bas.P e k n) else 0) + colTimesG x.bas x.bas.dim ne m u.val k n e) ∧
      (∀ i, x.bas.nc * x.bas.P * ne ≤ i → s .v i = if add then v.val i else 0) ∧ s .u = u.val := by
  have key : ∀ v : Buf α, ne * x.bas.nc * x.bas.P ≤ v.len → Launches (runDev dv ne dv.maxBlock
      (gradKernel x.bas.dim x.bas.nc x.bas.P1 x.bas.Q1 ne true ne dv.maxBlock)
      (memBasis (x.bas.Q1 * x.bas.P1) (bufLenDev x.bas) junk x.bas.interp1 x.bas.grad1 u v)) fun s =>
      (∀ k < x.bas.nc, ∀ n < x.bas.P, ∀ e < ne, s .v (gPos ne x.bas.P e k n) =
        v.val (gPos ne x.bas.P e k n) + colTimesG x.bas x.bas.dim ne m u.val k n e) ∧
      (∀ i, x.bas.nc * x.bas.P * ne ≤ i → s .v i = v.val i) ∧ s .u = u.val := by
    intro v hv
    have hmem : TMem x.bas.dim x.bas.nc x.bas.P1 x.bas.Q1 ne x.bas.dim true
        (memBasis (x.bas.Q1 * x.bas.P1) (bufLenDev x.bas) junk x.bas.interp1 x.bas.grad1 u v) := by
      refine hx.mem ?_ ?_
      · show _ * _ * _ ≤ _
        rw [← hx.Q, show x.bas.dim * (x.bas.nc * ne) * x.bas.Q = ne * x.bas.nc * x.bas.Q * x.bas.dim by ring]
        exact hu
      · show _ * _ * _ ≤ _
        rw [← hx.P, Nat.mul_comm x.bas.nc]
        exact hv
    have hr := runs_add (tkGT_ok hne hd hx.dim hx.P1 hx.Q1 hmem) rfl rfl
      (fun b _ t _ => gradKernel_eq hx.P1 hx.Q1 true ne _ b t)
    refine ⟨⟨ne, dv.maxBlock, _⟩, runDev_ok hne hd', hr.mono fun s hs => ?_⟩
    obtain ⟨h1, h2, h3⟩ := hs
    refine ⟨fun k hk n hn e he => ?_, fun i hi => h2 i ?_, h3⟩
    · rw [hx.P] at hn
      have h := h1 e he k hk n hn
      rw [← gPos_eq, hx.P]
      refine h.trans (congrArg₂ (· + ·) rfl ?_)
      unfold colTimesG
      refine Finset.sum_congr rfl fun c hc => ?_
      have hc := Finset.mem_range.mp hc
      rw [hx.Q]
      refine Finset.sum_congr rfl fun q hq => ?_
      have hq := Finset.mem_range.mp hq
      have hmv := hm c hc q (by rw [hx.Q]; exact hq) n (by rw [hx.P]; exact hn)
      rw [hx.Q] at hmv
      rw [hmv, ← quadPosG_eq]
      exact congrArg₂ (· * ·) (Finset.prod_congr rfl fun d _ => hx.tabG junk u v c d _ _) rfl
    · show x.bas.nc * ne * x.bas.P1 ^ x.bas.dim ≤ i
      rw [← hx.P, show x.bas.nc * ne * x.bas.P = x.bas.nc * x.bas.P * ne by ring]
      exact hi
  cases add
  · exact key ⟨v.len, fun _ => 0⟩ hv
  · exact key v hv

end

/-! ## Non-tensor bases -/

section
variable {x : DBas α} {dv : Device} {em : EMode} {m : Buf α}

/-- In mode `em` a non-tensor basis runs its kernels on the matrix `m`. -/
structure NOK (x : DBas α) (em : EMode) (m : Buf α) : Prop where
  nt : x.bas.isTensor = false
  mode : em ≠ .weight
  P : 0 < x.bas.P
  Q : 0 < x.bas.Q
  len : x.bas.qComp em * x.bas.Q * x.bas.P ≤ m.len
  call : ∀ (dv : Device) (junk : Vals α) (add : Bool) (ne : Nat) (u v : Buf α),
    applyNonTensorDev dv junk x add ne .noTranspose em (some u) v = runDev dv ne x.bas.Q
      (matKernel x.bas.nc (x.bas.qComp em) x.bas.P x.bas.Q ne x.bas.Q 1 ne) (memBasis 0 0 junk m ⟨0, fun _ => 0⟩ u v)
  callT : ∀ (dv : Device) (junk : Vals α) (add : Bool) (ne : Nat) (u v : Buf α),
    applyNonTensorDev dv junk x add ne .transpose em (some u) v = runDev dv ne x.bas.P
      (matTKernel x.bas.nc (x.bas.qComp em) x.bas.P x.bas.Q ne x.bas.P 1 ne)
      (memBasis 0 0 junk m ⟨0, fun _ => 0⟩ u (if add = false then ⟨v.len, fun _ => 0⟩ else v))

theorem NOK.mul (hx : NOK x em m) (hd : x.bas.Q ≤ dv.maxThreads) : MulByG dv x em m := by
  intro junk ne u v hne hu hv
  rw [applyDev_nt hx.mode hu hv, hx.nt, if_neg (by simp), hx.call]
  have hr := mat_runs (D := ⟨ne, x.bas.nc, x.bas.qComp em, x.bas.P, x.bas.Q⟩) (G := ne) (Z := 1)
    (m := memBasis 0 0 junk m ⟨0, fun _ => 0⟩ u v) hne Nat.one_pos hx.Q hx.len
    (by
      show x.bas.nc * ne * x.bas.P ≤ u.len
      rw [Nat.mul_comm x.bas.nc]
      exact hu)
    (by
      show x.bas.qComp em * x.bas.nc * ne * x.bas.Q ≤ v.len
      rw [show x.bas.qComp em * x.bas.nc * ne * x.bas.Q = ne * x.bas.Q * x.bas.nc * x.bas.qComp em by ring]
      exact hv)
  refine ⟨⟨ne, x.bas.Q, _⟩, runDev_ok hne hd, ?_⟩
  have hr' := hr
  rw [show x.bas.Q * 1 = x.bas.Q from Nat.mul_one _] at hr'
  refine hr'.mono fun s hs => ?_
  obtain ⟨h1, h2, h3⟩ := hs
  refine ⟨fun c hc k hk q hq e he => ?_, fun i hi => h2 i ?_, h3⟩
  · have h := h1 e he k hk c hc q hq
    have hp : rowPos ⟨ne, x.bas.nc, x.bas.qComp em, x.bas.P, x.bas.Q⟩ e k c q = quadPosG x.bas.nc x.bas.Q ne c k q e := by
      unfold rowPos quadPosG
      ring
    obtain ⟨d1, d2, d3, d4⟩ := rowPos_dec (D := ⟨ne, x.bas.nc, x.bas.qComp em, x.bas.P, x.bas.Q⟩) c he hk hq
    rw [← hp, h]
    unfold rowRes rowTimesG
    rw [d1, d2, d3, d4]
    refine Finset.sum_congr rfl fun n _ => ?_
    rw [show n + q * x.bas.P + c * x.bas.P * x.bas.Q = (c * x.bas.Q + q) * x.bas.P + n by ring,
      show e * x.bas.P + k * (x.bas.P * ne) + n = gPos ne x.bas.P e k n by unfold gPos; ring]
    rfl
  · show x.bas.qComp em * x.bas.nc * ne * x.bas.Q ≤ i
    rw [show x.bas.qComp em * x.bas.nc * ne * x.bas.Q = x.bas.qComp em * x.bas.nc * x.bas.Q * ne by ring]
    exact hi

theorem NOK.mulT (hx : NOK x em m) (hd : x.bas.P ≤ dv.maxThreads) (junk : Vals α) {ne : Nat} {u v : Buf α} (hne : 0 < ne)
    (hu : ne * x.bas.nc * x.bas.Q * x.bas.qComp em ≤ u.len) (hv : ne * x.bas.nc * x.bas.P ≤ v.len) (add : Bool) :
    Launches (applyNonTensorDev dv junk x add ne .transpose em (some u) v) fun s =>
      (∀ k < x.bas.nc, ∀ n < x.bas.P, ∀ e < ne, s .v (gPos ne x.bas.P e k n) =
        (if add then v.val (gPos ne x.bas.P e k n) else 0) + colTimesG x.bas (x.bas.qComp em) ne m u.val k n e) ∧
      (∀ i, x.bas.nc * x.bas.P * ne ≤ i → s .v i = if add then v.val i else 0) ∧ s .u = u.val := by
  rw [hx.callT]
  have key : ∀ v : Buf α, ne * x.bas.nc * x.bas.P ≤ v.len → Launches (runDev dv ne x.bas.P
      (matTKernel x.bas.nc (x.bas.qComp em) x.bas.P x.bas.Q ne x.bas.P 1 ne)
      (memBasis 0 0 junk m ⟨0, fun _ => 0⟩ u v)) fun s =>
      (∀ k < x.bas.nc, ∀ n < x.bas.P, ∀ e < ne, s .v (gPos ne x.bas.P e k n) =
        v.val (gPos ne x.bas.P e k n) + colTimesG x.bas (x.bas.qComp em) ne m u.val k n e) ∧
      (∀ i, x.bas.nc * x.bas.P * ne ≤ i → s .v i = v.val i) ∧ s .u = u.val := by
    intro v hv
    have hr := matT_runs (D := ⟨ne, x.bas.nc, x.bas.qComp em, x.bas.P, x.bas.Q⟩) (G := ne) (Z := 1)
      (m := memBasis 0 0 junk m ⟨0, fun _ => 0⟩ u v) hne Nat.one_pos hx.P hx.len
      (by
        show x.bas.qComp em * x.bas.nc * ne * x.bas.Q ≤ u.len
        rw [show x.bas.qComp em * x.bas.nc * ne * x.bas.Q = ne * x.bas.nc * x.bas.Q * x.bas.qComp em by ring]
        exact hu)
      (by
        show x.bas.nc * ne * x.bas.P ≤ v.len
        rw [Nat.mul_comm x.bas.nc]
        exact hv)
    refine ⟨⟨ne, x.bas.P, _⟩, runDev_ok hne hd, ?_⟩
    have hr' := hr
    rw [show x.bas.P * 1 = x.bas.P from Nat.mul_one _] at hr'
    refine hr'.mono fun s hs => ?_
    obtain ⟨h1, h2, h3⟩ := hs
    refine ⟨fun k hk n hn e he => ?_, fun i hi => h2 i ?_, h3⟩
    · have h := h1 e he k hk n hn
      have hp : colPos ⟨ne, x.bas.nc, x.bas.qComp em, x.bas.P, x.bas.Q⟩ e k n = gPos ne x.bas.P e k n := by
        unfold colPos gPos
        ring
      obtain ⟨d1, d2, d3⟩ := colPos_dec (D := ⟨ne, x.bas.nc, x.bas.qComp em, x.bas.P, x.bas.Q⟩) k he hn
      rw [← hp, h]
      refine congrArg₂ (· + ·) rfl ?_
      unfold colRes colTimesG
      rw [d1, d2, d3]
      refine Finset.sum_congr rfl fun c _ => Finset.sum_congr rfl fun q _ => ?_
      rw [show n + q * x.bas.P + c * x.bas.P * x.bas.Q = (c * x.bas.Q + q) * x.bas.P + n by ring,
        show e * x.bas.Q + k * (x.bas.Q * ne) + c * (x.bas.nc * x.bas.Q * ne) + q = quadPosG x.bas.nc x.bas.Q ne c k q e by
          unfold quadPosG; ring]
      rfl
    · show x.bas.nc * ne * x.bas.P ≤ i
      rw [show x.bas.nc * ne * x.bas.P = x.bas.nc * x.bas.P * ne by ring]
      exact hi
  cases add
  · exact key ⟨v.len, fun _ => 0⟩ hv
  · exact key v hv

end

theorem nok_of {x : DBas α} {sp : Space} {i d : Buf α} {w : Option (Buf α)} (h : DevNonTensorBasis x sp i d w) :
    (∃ m, getInterp x.bas = .ok (some m) ∧ m.val = i.val ∧ NOK x .interp m) ∧ (∃ m, m.val = d.val ∧ NOK x sp.mode m) ∧
    x.weights = w.map fun w => ⟨x.bas.Q, w.val⟩ := by
  obtain ⟨dim, nc, P, Q, h⟩ := h
  unfold createNonTensorDev at h
  simp only [Res.bind_eq_ok, Res.check_eq_ok] at h
  obtain ⟨_, h1, _, h2, _, h3, w', hw, i', hi, d', hd, h⟩ := h
  obtain ⟨_, rfl⟩ := copyIn_ok hi
  obtain ⟨_, rfl⟩ := copyIn_ok hd
  have hw' := copyOpt_ok hw
  injection h with h
  subst h
  have hP : 0 < P.toNat := by omega
  have hQ : 0 < Q.toNat := by omega
  refine ⟨⟨_, rfl, rfl, rfl, by simp, hP, hQ, ?_, fun dv junk add ne u v => ?_, fun dv junk add ne u v => ?_⟩, ?_, hw'⟩
  · cases sp <;> simp [Bas.qComp]
  · cases add <;> rfl
  · cases add <;> rfl
  · cases sp
    · exact ⟨⟨dim * Q.toNat * P.toNat, d.val⟩, rfl, rfl, by simp [Space.mode, Basis.Space.mode], hP, hQ, le_refl _,
        fun dv junk add ne u v => by cases add <;> rfl, fun dv junk add ne u v => by cases add <;> rfl⟩
    · exact ⟨⟨1 * Q.toNat * P.toNat, d.val⟩, rfl, rfl, by simp [Space.mode, Basis.Space.mode], hP, hQ, le_refl _,
        fun dv junk add ne u v => by cases add <;> rfl, fun dv junk add ne u v => by cases add <;> rfl⟩
    · exact ⟨⟨(if dim < 3 then 1 else dim) * Q.toNat * P.toNat, d.val⟩, rfl, rfl, by simp [Space.mode, Basis.Space.mode], hP, hQ, le_refl _,
        fun dv junk add ne u v => by cases add <;> rfl, fun dv junk add ne u v => by cases add <;> rfl⟩

end Verif.Gpu
