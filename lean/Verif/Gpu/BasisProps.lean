import Verif.Gpu.BasisApply
import Verif.Basis.Props

/-!
# C62: a basis on a device acts as the matrices of the basis on every schedule
-/

namespace Verif.Gpu
open Finset
open Verif.Restriction (TMode)
open Verif.Basis (Bas EMode Space coord TensorBasis nodePos quadPos MulBy MulByT rowTimes colTimes)

variable {α : Type} [CommRing α]

section
variable {dv : Device} {x : DBas α} {i1 g1 : Buf α} {w : Option (Buf α)}

/-- C62: for a tensor basis on a device, `CeedBasisGetInterp` returns the matrix of products of 1D entries, and
`CeedBasisApply` and `CeedBasisApplyAdd` are multiplication by it and by its transpose, on every schedule. -/
theorem C62_interp (hx : DevTensorBasis x i1 g1 w) (hd : 0 < dv.maxBlock) (hd' : dv.maxBlock ≤ dv.maxThreads) :
    ∃ m, Basis.getInterp x.bas = .ok (some m) ∧
      (∀ q < x.bas.Q, ∀ n < x.bas.P, m.val (q * x.bas.P + n) =
        ∏ d ∈ range x.bas.dim, i1.val (coord x.bas.Q1 d q * x.bas.P1 + coord x.bas.P1 d n)) ∧
      MulByG dv x .interp m ∧ MulByTG dv x .interp m ∧ AddByTG dv x .interp m := by
  have hT := tok_of hx
  obtain ⟨m, h1, h2⟩ := hT.getInterp
  have hqc : x.bas.qComp .interp = 1 := by simp [Bas.qComp, hT.h1]
  refine ⟨m, h1, h2, hT.mul_interp hd hd' h2, fun junk ne u v hne hu hv => ?_, fun junk ne u v hne hu hv => ?_⟩
  · rw [applyDev_t (by simp) hu hv, hT.tensor, if_pos rfl]
    rw [hqc, Nat.mul_one] at hu
    obtain ⟨L, e, hr⟩ := hT.mulT_interp hd hd' h2 junk hne hu hv false
    refine ⟨L, e, hr.mono fun s hs => ⟨fun k hk n hn e he => ?_, hs.2⟩⟩
    rw [hs.1 k hk n hn e he, hqc]
    exact zero_add _
  · rw [applyAddDev_t (by simp) hu hv, hT.tensor, if_pos rfl]
    rw [hqc, Nat.mul_one] at hu
    obtain ⟨L, e, hr⟩ := hT.mulT_interp hd hd' h2 junk hne hu hv true
    refine ⟨L, e, hr.mono fun s hs => ⟨fun k hk n hn e he => ?_, hs.2⟩⟩
    rw [hs.1 k hk n hn e he, hqc]
    rfl

/-- The same for gradients: products of 1D entries with one factor differentiated. -/
theorem C62_grad (hx : DevTensorBasis x i1 g1 w) (hd : 0 < dv.maxBlock) (hd' : dv.maxBlock ≤ dv.maxThreads) :
    ∃ m, Basis.getGrad x.bas = .ok (some m) ∧
      (∀ c < x.bas.dim, ∀ q < x.bas.Q, ∀ n < x.bas.P, m.val ((c * x.bas.Q + q) * x.bas.P + n) =
        ∏ d ∈ range x.bas.dim, (if c = d then g1 else i1).val (coord x.bas.Q1 d q * x.bas.P1 + coord x.bas.P1 d n)) ∧
      MulByG dv x .grad m ∧ MulByTG dv x .grad m ∧ AddByTG dv x .grad m := by
  have hT := tok_of hx
  obtain ⟨m, h1, h2⟩ := hT.getGrad
  refine ⟨m, h1, h2, hT.mul_grad hd hd' h2, fun junk ne u v hne hu hv => ?_, fun junk ne u v hne hu hv => ?_⟩
  · rw [applyDev_t (by simp) hu hv, hT.tensor, if_pos rfl]
    obtain ⟨L, e, hr⟩ := hT.mulT_grad hd hd' h2 junk hne hu hv false
    refine ⟨L, e, hr.mono fun s hs => ⟨fun k hk n hn e he => ?_, hs.2⟩⟩
    rw [hs.1 k hk n hn e he]
    exact zero_add _
  · rw [applyAddDev_t (by simp) hu hv, hT.tensor, if_pos rfl]
    exact hT.mulT_grad hd hd' h2 junk hne hu hv true

/-- The weights of a tensor basis are the products of the 1D weights, in up to three dimensions, if a block of as many
threads as there are points in a plane is allowed. (`CEED_TRANSPOSE` is covered by `C62_weight_transpose_witness`.) -/
theorem C62_weights_partial {w : Buf α} (hx : DevTensorBasis x i1 g1 (some w)) (h3 : x.bas.dim ≤ 3)
    (hB : x.bas.Q1 * (if x.bas.dim ≥ 2 then x.bas.Q1 else 1) ≤ dv.maxThreads) (junk : Vals α) {ne : Nat} (hne : 0 < ne)
    (u : Option (Buf α)) {v : Buf α} (hv : ne * x.bas.Q ≤ v.len) :
    Launches (applyDev dv junk x ne .noTranspose .weight u v) fun s =>
      (∀ e < ne, ∀ q < x.bas.Q, s .v (e * x.bas.Q + q) = ∏ d ∈ range x.bas.dim, w.val (coord x.bas.Q1 d q)) ∧
      ∀ i, ne * x.bas.Q ≤ i → s .v i = v.val i := by
  have hT := tok_of hx
  have hw : x.weights = some ⟨x.bas.Q1, w.val⟩ := hT.w
  have hcall : applyDev dv junk x ne .noTranspose .weight u v = runDev dv ne
      (x.bas.Q1 * (if x.bas.dim ≥ 2 then x.bas.Q1 else 1)) (weightKernel x.bas.dim x.bas.Q1 ne)
      (memBasis (x.bas.Q1 * x.bas.P1) (bufLenDev x.bas) junk ⟨x.bas.Q1, w.val⟩ x.bas.grad1 (u.getD ⟨0, fun _ => 0⟩) v) := by
    unfold applyDev Basis.checkDims
    rw [Res.check_true (decide_eq_true hv), Res.bind_ok, hT.tensor, if_pos rfl]
    unfold applyTensorDev
    rw [Res.check_true (show u.isSome = true ∨ EMode.weight = .weight from .inr rfl), Res.bind_ok]
    simp only [hw, Res.bind_ok, Option.isSome_some,
      Res.check_true, Option.getD_some]
    rfl
  rw [hcall]
  refine ⟨⟨ne, _, _⟩, runDev_ok hne hB, Runs.mono (weight_runs (m := memBasis (x.bas.Q1 * x.bas.P1) (bufLenDev x.bas) junk
    ⟨x.bas.Q1, w.val⟩ x.bas.grad1 (u.getD ⟨0, fun _ => 0⟩) v) hT.dim h3 hT.Q1 (le_refl _) ?_) fun s hs => ?_⟩
  · rw [← hT.Q]
    exact hv
  · rw [hT.Q]
    exact ⟨hs.1, hs.2.1⟩

/-- In more than three dimensions the call succeeds and writes no weights. -/
theorem C62_weights_dim4_witness {w : Buf α} (hx : DevTensorBasis x i1 g1 (some w)) (h3 : 3 < x.bas.dim)
    (hB : x.bas.Q1 * x.bas.Q1 ≤ dv.maxThreads) (junk : Vals α) {ne : Nat} (hne : 0 < ne) (u : Option (Buf α)) {v : Buf α}
    (hv : ne * x.bas.Q ≤ v.len) :
    Launches (applyDev dv junk x ne .noTranspose .weight u v) fun s => s .v = v.val := by
  have hT := tok_of hx
  have hw : x.weights = some ⟨x.bas.Q1, w.val⟩ := hT.w
  have hcall : applyDev dv junk x ne .noTranspose .weight u v = runDev dv ne
      (x.bas.Q1 * (if x.bas.dim ≥ 2 then x.bas.Q1 else 1)) (weightKernel x.bas.dim x.bas.Q1 ne)
      (memBasis (x.bas.Q1 * x.bas.P1) (bufLenDev x.bas) junk ⟨x.bas.Q1, w.val⟩ x.bas.grad1 (u.getD ⟨0, fun _ => 0⟩) v) := by
    unfold applyDev Basis.checkDims
    rw [Res.check_true (decide_eq_true hv), Res.bind_ok, hT.tensor, if_pos rfl]
    unfold applyTensorDev
    rw [Res.check_true (show u.isSome = true ∨ EMode.weight = .weight from .inr rfl), Res.bind_ok]
    simp only [hw, Res.bind_ok, Option.isSome_some,
      Res.check_true, Option.getD_some]
    rfl
  rw [if_pos (show x.bas.dim ≥ 2 by omega)] at hcall
  rw [hcall]
  refine ⟨⟨ne, _, _⟩, runDev_ok hne hB, runs_pieces (Nat.mul_pos hT.Q1 hT.Q1) (fun _ _ _ _ => False) roUT id
    (fun b _ t _ => ?_) (fun _ _ _ _ _ _ _ _ _ _ h => h.elim) (fun _ _ _ _ _ _ h => h.elim) fun s _ h2 => ?_⟩
  · unfold weightKernel
    simp only [show ¬ x.bas.dim = 1 by omega, show ¬ x.bas.dim = 2 by omega, show ¬ x.bas.dim = 3 by omega, if_false]
    exact piece_pure
  · funext i
    exact h2 .v i fun _ _ _ _ h => h

/-- `CEED_EVAL_WEIGHT` with `CEED_TRANSPOSE`, an error on the host (`backends/ref/ceed-ref-basis.c` 176), writes the
weights on the device, after setting the vector to zero. -/
theorem C62_weight_transpose_witness {w : Buf α} (hx : DevTensorBasis x i1 g1 (some w)) (h3 : x.bas.dim ≤ 3)
    (hB : x.bas.Q1 * (if x.bas.dim ≥ 2 then x.bas.Q1 else 1) ≤ dv.maxThreads) (junk : Vals α) {ne : Nat} (hne : 0 < ne)
    (u : Option (Buf α)) {v : Buf α} (hv : ne * x.bas.Q ≤ v.len) :
    (∀ (b : Bas α) (hb : b.isTensor = true) (j : Nat → Nat → α), ne * b.Q ≤ v.len →
      Basis.apply b j ne .transpose .weight u v = .err .backend) ∧
    Launches (applyDev dv junk x ne .transpose .weight u v) fun s =>
      (∀ e < ne, ∀ q < x.bas.Q, s .v (e * x.bas.Q + q) = ∏ d ∈ range x.bas.dim, w.val (coord x.bas.Q1 d q)) ∧
      ∀ i, ne * x.bas.Q ≤ i → s .v i = 0 := by
  have hT := tok_of hx
  have hw : x.weights = some ⟨x.bas.Q1, w.val⟩ := hT.w
  refine ⟨fun b hb j hl => ?_, ?_⟩
  · unfold Basis.apply Basis.checkDims
    rw [Res.check_true (decide_eq_true hl), Res.bind_ok]
    unfold Basis.applyCore
    obtain ⟨z, hz, -⟩ := Basis.fill_zero v
    rw [Res.check_true (show u.isSome = true ∨ EMode.weight = .weight from .inr rfl), Res.bind_ok,
      if_pos ⟨rfl, rfl⟩, hz, Res.bind_ok]
    simp only [hb, if_true]
    rfl
  have hcall : applyDev dv junk x ne .transpose .weight u v = runDev dv ne
      (x.bas.Q1 * (if x.bas.dim ≥ 2 then x.bas.Q1 else 1)) (weightKernel x.bas.dim x.bas.Q1 ne)
      (memBasis (x.bas.Q1 * x.bas.P1) (bufLenDev x.bas) junk ⟨x.bas.Q1, w.val⟩ x.bas.grad1 (u.getD ⟨0, fun _ => 0⟩)
        ⟨v.len, fun _ => 0⟩) := by
    unfold applyDev Basis.checkDims
    rw [Res.check_true (decide_eq_true hv), Res.bind_ok, hT.tensor, if_pos rfl]
    unfold applyTensorDev
    rw [Res.check_true (show u.isSome = true ∨ EMode.weight = .weight from .inr rfl), Res.bind_ok]
    simp only [hw, Res.bind_ok, Option.isSome_some,
      Res.check_true, Option.getD_some]
    rfl
  rw [hcall]
  refine ⟨⟨ne, _, _⟩, runDev_ok hne hB, Runs.mono (weight_runs (m := memBasis (x.bas.Q1 * x.bas.P1) (bufLenDev x.bas) junk
    ⟨x.bas.Q1, w.val⟩ x.bas.grad1 (u.getD ⟨0, fun _ => 0⟩) ⟨v.len, fun _ => 0⟩) hT.dim h3 hT.Q1 (le_refl _) ?_) fun s hs => ?_⟩
  · rw [← hT.Q]
    exact hv
  · rw [hT.Q]
    exact ⟨hs.1, hs.2.1⟩

/-- Asking for the weights of a basis created without weights is an error. -/
theorem C62_no_weights (hx : DevTensorBasis x i1 g1 none) (junk : Vals α) (ne : Nat) (tm : TMode) (u : Option (Buf α))
    {v : Buf α} (hv : ne * x.bas.Q ≤ v.len) : applyDev dv junk x ne tm .weight u v = .err .backend := by
  have hT := tok_of hx
  have hw : x.weights = none := hT.w
  unfold applyDev Basis.checkDims
  rw [Res.check_true (decide_eq_true hv), Res.bind_ok, hT.tensor, if_pos rfl]
  unfold applyTensorDev
  rw [Res.check_true (show u.isSome = true ∨ EMode.weight = .weight from .inr rfl), Res.bind_ok]
  simp only [hw]
  rfl

/-- With no elements, a call that the host backend executes as doing nothing is refused by the driver of the device, as a
grid of no blocks. -/
theorem C62_no_elements_witness (hx : DevTensorBasis x i1 g1 w) {b : Bas α} {wb : Buf α} (hb : TensorBasis b i1 g1 wb)
    (junk : Vals α) (j : Nat → Nat → α) (tm : TMode) (u v : Buf α) :
    (∃ v', Basis.apply b j 0 tm .interp (some u) v = .ok v') ∧
    applyDev dv junk x 0 tm .interp (some u) v = .err .backend := by
  have hT := tok_of hx
  obtain ⟨m, -, -, h1, h2⟩ := Basis.C21_interp_partial hb
  refine ⟨?_, ?_⟩
  · cases tm
    · obtain ⟨v', h, -⟩ := h1 j 0 u v (by simp) (by simp)
      exact ⟨v', h⟩
    · obtain ⟨v', h, -⟩ := h2 j 0 u v (by simp) (by simp)
      exact ⟨v', h⟩
  · cases tm
    · rw [applyDev_nt (by simp) (by simp) (by simp), hT.tensor]
      rfl
    · rw [applyDev_t (by simp) (by simp) (by simp), hT.tensor]
      rfl

/-- `CEED_EVAL_NONE` copies the input to the output if the output is not longer than the input. -/
theorem C62_none (hx : DevTensorBasis x i1 g1 w) (junk : Vals α) {ne : Nat} {u v : Buf α}
    (hu : ne * x.bas.nc * x.bas.P ≤ u.len) (hv : ne * x.bas.Q * x.bas.nc ≤ v.len) (hl : v.len ≤ u.len) :
    Launches (applyDev dv junk x ne .noTranspose .none (some u) v) fun s => ∀ i < v.len, s .v i = u.val i := by
  have hT := tok_of hx
  rw [applyDev_nt (by simp) hu (by simpa [Bas.qComp] using hv), hT.tensor, if_pos rfl]
  unfold applyTensorDev copyAll
  simp only [Res.check_true (show (some u).isSome ∨ EMode.none = .weight from .inl rfl), Res.bind_ok, Option.getD_some,
    Bool.false_eq_true, false_and, and_false, if_false, decide_false, reduceCtorEq, hl, if_true]
  refine ⟨_, rfl, ?_⟩
  refine runs_apart (F := ⟨fun _ _ _ _ => False, fun _ _ => True, fun _ _ => False⟩)
    ⟨fun _ _ _ _ h _ => h.elim, fun _ _ h => h.elim, fun _ _ h => h.elim, fun _ h => h⟩
    (fun b hb => absurd hb (Nat.not_lt_zero _)) fun s _ _ ho i _ => ?_
  exact ho .v i (fun h => h) fun _ _ _ _ h => h

/-- If the output is longer, which the checks of `CeedBasisApply` allow, entries behind the end of the input are read. -/
theorem C62_none_longer_witness (hx : DevTensorBasis x i1 g1 w) (junk : Vals α) {ne : Nat} {u v : Buf α}
    (hu : ne * x.bas.nc * x.bas.P ≤ u.len) (hv : ne * x.bas.Q * x.bas.nc ≤ v.len) (hl : u.len < v.len) :
    applyDev dv junk x ne .noTranspose .none (some u) v = .ub := by
  have hT := tok_of hx
  rw [applyDev_nt (by simp) hu (by simpa [Bas.qComp] using hv), hT.tensor, if_pos rfl]
  unfold applyTensorDev copyAll
  simp only [Res.check_true (show (some u).isSome ∨ EMode.none = .weight from .inl rfl), Res.bind_ok, Option.getD_some,
    Bool.false_eq_true, false_and, and_false, if_false, decide_false, reduceCtorEq, if_neg (Nat.not_le.mpr hl)]
  rfl

end

/-- C62 for non-tensor bases: every mode the basis provides is multiplication by the matrix given at creation, if the
device accepts blocks of as many threads as there are nodes and quadrature points. -/
theorem C62_nontensor {dv : Device} {x : DBas α} {sp : Space} {i d : Buf α} {w : Option (Buf α)}
    (hx : DevNonTensorBasis x sp i d w) (hP : x.bas.P ≤ dv.maxThreads) (hQ : x.bas.Q ≤ dv.maxThreads) :
    (∃ m, Basis.getInterp x.bas = .ok (some m) ∧ m.val = i.val ∧
      MulByG dv x .interp m ∧ MulByTG dv x .interp m ∧ AddByTG dv x .interp m) ∧
    ∃ m, m.val = d.val ∧ MulByG dv x sp.mode m ∧ MulByTG dv x sp.mode m ∧ AddByTG dv x sp.mode m := by
  have key : ∀ {em : EMode} {m : Buf α}, NOK x em m → MulByG dv x em m ∧ MulByTG dv x em m ∧ AddByTG dv x em m := by
    intro em m h
    refine ⟨h.mul hQ, fun junk ne u v hne hu hv => ?_, fun junk ne u v hne hu hv => ?_⟩
    · rw [applyDev_t h.mode hu hv, h.nt, if_neg (by simp)]
      obtain ⟨L, e, hr⟩ := h.mulT hP junk hne hu hv false
      refine ⟨L, e, hr.mono fun s hs => ⟨fun k hk n hn e he => ?_, hs.2⟩⟩
      rw [hs.1 k hk n hn e he]
      exact zero_add _
    · rw [applyAddDev_t h.mode hu hv, h.nt, if_neg (by simp)]
      exact h.mulT hP junk hne hu hv true
  obtain ⟨⟨m, h1, h2, h3⟩, ⟨m', h4, h5⟩, -⟩ := nok_of hx
  exact ⟨⟨m, h1, h2, key h3⟩, m', h4, key h5⟩

/-- The weights of a non-tensor basis. -/
theorem C62_nontensor_weights {dv : Device} {x : DBas α} {sp : Space} {i d w : Buf α}
    (hx : DevNonTensorBasis x sp i d (some w)) (hQ : x.bas.Q ≤ dv.maxThreads) (junk : Vals α) {ne : Nat} (hne : 0 < ne)
    (u : Option (Buf α)) {v : Buf α} (hv : ne * x.bas.Q ≤ v.len) :
    Launches (applyDev dv junk x ne .noTranspose .weight u v) fun s =>
      (∀ e < ne, ∀ q < x.bas.Q, s .v (e * x.bas.Q + q) = w.val q) ∧ ∀ i, ne * x.bas.Q ≤ i → s .v i = v.val i := by
  obtain ⟨⟨m, -, -, h3⟩, -, hw⟩ := nok_of hx
  have hw : x.weights = some ⟨x.bas.Q, w.val⟩ := hw
  have hcall : applyDev dv junk x ne .noTranspose .weight u v = runDev dv ne x.bas.Q (weightsKernel x.bas.Q ne x.bas.Q 1 ne)
      (memBasis 0 0 junk ⟨x.bas.Q, w.val⟩ ⟨0, fun _ => 0⟩ (u.getD ⟨0, fun _ => 0⟩) v) := by
    unfold applyDev Basis.checkDims
    rw [Res.check_true (decide_eq_true hv), Res.bind_ok, h3.nt, if_neg (by simp)]
    unfold applyNonTensorDev
    rw [Res.check_true (show u.isSome = true ∨ EMode.weight = .weight from .inr rfl), Res.bind_ok]
    simp only [hw, Res.bind_ok, Option.isSome_some,
      Res.check_true, Option.getD_some]
    rfl
  rw [hcall]
  have hr := weights_runs (Q := x.bas.Q) (ne := ne) (G := ne) (Z := 1)
    (m := memBasis 0 0 junk ⟨x.bas.Q, w.val⟩ ⟨0, fun _ => 0⟩ (u.getD ⟨0, fun _ => 0⟩) v) hne Nat.one_pos h3.Q (le_refl _) hv
  rw [show x.bas.Q * 1 = x.bas.Q from Nat.mul_one _] at hr
  exact ⟨⟨ne, _, _⟩, runDev_ok hne hQ, hr.mono fun s hs => ⟨hs.1, hs.2.1⟩⟩

/-- A block of more threads than the device accepts is refused: for a non-tensor basis with too many quadrature points. -/
theorem C62_block_limit_witness {dv : Device} {x : DBas α} {sp : Space} {i d : Buf α} {w : Option (Buf α)}
    (hx : DevNonTensorBasis x sp i d w) (hQ : dv.maxThreads < x.bas.Q) (junk : Vals α) {ne : Nat} {u v : Buf α}
    (hu : ne * x.bas.nc * x.bas.P ≤ u.len) (hv : ne * x.bas.Q * x.bas.nc * x.bas.qComp .interp ≤ v.len) :
    applyDev dv junk x ne .noTranspose .interp (some u) v = .err .backend := by
  obtain ⟨⟨m, -, -, h3⟩, -, -⟩ := nok_of hx
  rw [applyDev_nt (by simp) hu hv, h3.nt, if_neg (by simp), h3.call]
  unfold runDev
  rw [if_pos (.inr hQ)]

/-- Vectors that are too short are refused, before anything is launched. -/
theorem C62_too_short {dv : Device} {x : DBas α} (junk : Vals α) {ne : Nat} {em : EMode} (hem : em ≠ .weight) {u v : Buf α} :
    (u.len < ne * x.bas.nc * x.bas.P ∨ v.len < ne * x.bas.Q * x.bas.nc * x.bas.qComp em →
      applyDev dv junk x ne .noTranspose em (some u) v = .err .dimension) ∧
    (u.len < ne * x.bas.nc * x.bas.Q * x.bas.qComp em ∨ v.len < ne * x.bas.nc * x.bas.P →
      applyDev dv junk x ne .transpose em (some u) v = .err .dimension ∧
      applyAddDev dv junk x ne .transpose em (some u) v = .err .dimension) ∧
    applyAddDev dv junk x ne .noTranspose em (some u) v = .err .unsupported := by
  refine ⟨fun h => ?_, fun h => ⟨?_, ?_⟩, ?_⟩
  · unfold applyDev Basis.checkDims
    rw [Res.check_false]
    · rfl
    · cases em <;> first | exact absurd rfl hem | (simp; omega)
  · unfold applyDev Basis.checkDims
    rw [Res.check_false]
    · rfl
    · cases em <;> first | exact absurd rfl hem | (simp; omega)
  · unfold applyAddDev Basis.checkDims
    rw [Res.check_true rfl, Res.bind_ok, Res.check_false]
    · rfl
    · cases em <;> first | exact absurd rfl hem | (simp; omega)
  · unfold applyAddDev
    rw [Res.check_false (by simp)]
    rfl

/-- The same tensor basis on the host and on a device: vectors that agree, each in the layout of its backend, are mapped
to vectors that agree, by interpolation and gradient and their transposes. -/
theorem C62_same_as_host {dv : Device} {x : DBas α} {b : Bas α} {i1 g1 wb : Buf α} {w : Option (Buf α)}
    (hx : DevTensorBasis x i1 g1 w) (hb : TensorBasis b i1 g1 wb) (hd : 0 < dv.maxBlock)
    (hd' : dv.maxBlock ≤ dv.maxThreads) (e1 : x.bas.dim = b.dim) (e2 : x.bas.nc = b.nc) (e3 : x.bas.P1 = b.P1)
    (e4 : x.bas.Q1 = b.Q1) {em : EMode} (hem : em = .interp ∨ em = .grad) (junk : Vals α) (j : Nat → Nat → α) {ne : Nat}
    (hne : 0 < ne) :
    (∀ u v uh vh : Buf α, ne * b.nc * b.P ≤ u.len → ne * b.Q * b.nc * b.qComp em ≤ v.len →
      ne * b.nc * b.P ≤ uh.len → ne * b.Q * b.nc * b.qComp em ≤ vh.len →
      (∀ k < b.nc, ∀ n < b.P, ∀ e < ne, u.val (gPos ne b.P e k n) = uh.val (nodePos b.P ne k n e)) →
      ∃ vh', Basis.apply b j ne .noTranspose em (some uh) vh = .ok vh' ∧
        Launches (applyDev dv junk x ne .noTranspose em (some u) v) fun s =>
          ∀ c < b.qComp em, ∀ k < b.nc, ∀ q < b.Q, ∀ e < ne,
            s .v (quadPosG b.nc b.Q ne c k q e) = vh'.val (quadPos b.nc b.Q ne c k q e)) ∧
    ∀ u v uh vh : Buf α, ne * b.nc * b.Q * b.qComp em ≤ u.len → ne * b.nc * b.P ≤ v.len →
      ne * b.nc * b.Q * b.qComp em ≤ uh.len → ne * b.nc * b.P ≤ vh.len →
      (∀ c < b.qComp em, ∀ k < b.nc, ∀ q < b.Q, ∀ e < ne,
        u.val (quadPosG b.nc b.Q ne c k q e) = uh.val (quadPos b.nc b.Q ne c k q e)) →
      ∃ vh', Basis.apply b j ne .transpose em (some uh) vh = .ok vh' ∧
        Launches (applyDev dv junk x ne .transpose em (some u) v) fun s =>
          ∀ k < b.nc, ∀ n < b.P, ∀ e < ne, s .v (gPos ne b.P e k n) = vh'.val (nodePos b.P ne k n e) := by
  have hT := tok_of hx
  obtain ⟨hH, -⟩ := Basis.tensorOK_of hb
  have eP : x.bas.P = b.P := by rw [hT.P, hH.hP, e1, e3]
  have eQ : x.bas.Q = b.Q := by rw [hT.Q, hH.hQ, e1, e4]
  have eqc : x.bas.qComp em = b.qComp em := by
    rcases hem with rfl | rfl
    · simp [Bas.qComp, hT.h1, hH.h1]
    · exact e1
  obtain ⟨m, m', h1, h1', h2, h2', hmm⟩ : ∃ m m', MulByG dv x em m ∧ MulByTG dv x em m ∧ MulBy b em m' ∧ MulByT b em m' ∧
      ∀ c < b.qComp em, ∀ q < b.Q, ∀ n < b.P, m.val ((c * b.Q + q) * b.P + n) = m'.val ((c * b.Q + q) * b.P + n) := by
    rcases hem with rfl | rfl
    · obtain ⟨m, -, hm, h1, h1', -⟩ := C62_interp hx hd hd'
      obtain ⟨m', -, hm', h2, h2'⟩ := Basis.C21_interp_partial hb
      refine ⟨m, m', h1, h1', h2, h2', fun c hc q hq n hn => ?_⟩
      have hc0 : c = 0 := by
        have : b.qComp .interp = 1 := by simp [Bas.qComp, hH.h1]
        omega
      subst hc0
      rw [Nat.zero_mul, Nat.zero_add, hm' q hq n hn]
      have h := hm q (by rw [eQ]; exact hq) n (by rw [eP]; exact hn)
      rw [eP, e1, e3, e4] at h
      exact h
    · obtain ⟨m, -, hm, h1, h1', -⟩ := C62_grad hx hd hd'
      obtain ⟨m', -, hm', h2, h2'⟩ := Basis.C22_grad_partial hb
      refine ⟨m, m', h1, h1', h2, h2', fun c hc q hq n hn => ?_⟩
      have hc : c < b.dim := hc
      rw [hm' c hc q hq n hn]
      have h := hm c (by rw [e1]; exact hc) q (by rw [eQ]; exact hq) n (by rw [eP]; exact hn)
      rw [eP, eQ, e1, e3, e4] at h
      exact h
  refine ⟨fun u v uh vh hu hv huh hvh hs => ?_, fun u v uh vh hu hv huh hvh hs => ?_⟩
  · obtain ⟨vh', hh, -, hh2, -⟩ := h2 j ne uh vh huh hvh
    obtain ⟨L, hL, hr⟩ := h1 junk ne u v hne (by rw [e2, eP]; exact hu) (by rw [e2, eQ, eqc]; exact hv)
    refine ⟨vh', hh, L, hL, hr.mono fun s hs' c hc k hk q hq e he => ?_⟩
    have h := hs'.1 c (by rw [eqc]; exact hc) k (by rw [e2]; exact hk) q (by rw [eQ]; exact hq) e he
    rw [e2, eQ] at h
    rw [h, hh2 c hc k hk q hq e he]
    unfold rowTimesG rowTimes
    rw [eP, eQ]
    refine Finset.sum_congr rfl fun n hn => ?_
    have hn := Finset.mem_range.mp hn
    rw [hmm c hc q hq n hn, hs k hk n hn e he]
  · obtain ⟨vh', hh, -, hh2, -⟩ := h2' j ne uh vh huh hvh
    obtain ⟨L, hL, hr⟩ := h1' junk ne u v hne (by rw [e2, eQ, eqc]; exact hu) (by rw [e2, eP]; exact hv)
    refine ⟨vh', hh, L, hL, hr.mono fun s hs' k hk n hn e he => ?_⟩
    have h := hs'.1 k (by rw [e2]; exact hk) n (by rw [eP]; exact hn) e he
    rw [eP] at h
    rw [h, hh2 k hk n hn e he]
    unfold colTimesG colTimes
    rw [eP, eQ, eqc, e2]
    refine Finset.sum_congr rfl fun c hc => Finset.sum_congr rfl fun q hq => ?_
    have hc := Finset.mem_range.mp hc
    have hq := Finset.mem_range.mp hq
    rw [hmm c hc q hq n hn, hs c hc k hk q hq e he]

end Verif.Gpu
