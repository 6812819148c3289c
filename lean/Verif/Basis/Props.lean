import Verif.Basis.Safe

/-!
# Properties of tensor contractions and bases: C20, C21, C22, C23, C24, C28
-/

namespace Verif
namespace Basis

open Finset
open Restriction (TMode)
variable {α : Type} [CommRing α]

/-! ## C20 tensor contraction -/

/-- C20: the contraction computes `v[a,j,c] (+)= Σ_b t[j,b] u[a,b,c]` and touches nothing else. -/
theorem C20_formula (A B C J : Nat) (t : Buf α) (tof : Nat) (tm : TMode) (add : Bool) (u : Buf α) (uo : Nat) (v : Buf α)
    (vo : Nat) (ht : tof + B * J ≤ t.len) (hu : uo + A * B * C ≤ u.len) (hv : vo + A * J * C ≤ v.len) :
    ∃ v', contract A B C J t tof tm add u uo v vo = .ok v' ∧ v'.len = v.len ∧
      (∀ a < A, ∀ j < J, ∀ c < C, v'.val (vo + ((a * J + j) * C + c)) =
        (if add then v.val (vo + ((a * J + j) * C + c)) else 0) +
          ∑ b ∈ range B, entry t tof tm B J j b * u.val (uo + ((a * B + b) * C + c))) ∧
      ∀ x, x < vo ∨ vo + A * J * C ≤ x → v'.val x = v.val x := by
  refine ⟨_, contract_eq A B C J t tof tm add u uo v vo ht hu hv, rfl, ?_, ?_⟩
  · intro a ha j hj c hc
    have := enc_lt (enc_lt ha hj) hc
    simp only [contrOut]
    rw [if_pos (by omega), Nat.add_sub_cancel_left, contr_enc _ _ hj hc]
    congr 1
  · intro x hx
    simp only [contrOut]
    rw [if_neg (by omega)]

/-- C20: the optimised contraction is the same function. -/
theorem C20_opt_eq_ref (A B C J : Nat) (t : Buf α) (tof : Nat) (tm : TMode) (add : Bool) (u : Buf α) (uo : Nat)
    (v : Buf α) (vo : Nat) :
    contractOpt A B C J t tof tm add u uo v vo = contract A B C J t tof tm add u uo v vo := by
  unfold contractOpt contract contractCoreOpt
  by_cases h : C = 1
  · subst h; simp only [if_true]
  · simp only [if_neg h]

/-- C20: contraction is linear in its argument. -/
theorem C20_linear (A B C J : Nat) (t : Buf α) (tm : TMode) (x y : α) (u u' v w w' : Buf α) (r r' : Buf α)
    (hu : A * B * C ≤ u.len) (hu' : u'.len = u.len) (ht : B * J ≤ t.len) (hv : A * J * C ≤ v.len)
    (hw : A * J * C ≤ w.len) (hw' : A * J * C ≤ w'.len)
    (h : contract A B C J t 0 tm false u 0 w 0 = .ok r) (h' : contract A B C J t 0 tm false u' 0 w' 0 = .ok r') :
    ∃ s, contract A B C J t 0 tm false ⟨u.len, fun i => x * u.val i + y * u'.val i⟩ 0 v 0 = .ok s ∧
      ∀ i < A * J * C, s.val i = x * r.val i + y * r'.val i := by
  obtain ⟨s, e, _, es, _⟩ := C20_formula A B C J t 0 tm false ⟨u.len, fun i => x * u.val i + y * u'.val i⟩ 0 v 0
    (by omega) (by simpa using hu) (by omega)
  obtain ⟨r1, e1, _, es1, _⟩ := C20_formula A B C J t 0 tm false u 0 w 0 (by omega) (by omega) (by omega)
  obtain ⟨r2, e2, _, es2, _⟩ := C20_formula A B C J t 0 tm false u' 0 w' 0 (by omega) (by omega) (by omega)
  rw [h] at e1; cases e1
  rw [h'] at e2; cases e2
  refine ⟨s, e, forall_enc (fun a ha j hj c hc => ?_)⟩
  have e0 := es a ha j hj c hc
  have e1 := es1 a ha j hj c hc
  have e2 := es2 a ha j hj c hc
  simp only [Bool.false_eq_true, if_false, zero_add] at e0 e1 e2
  rw [e0, e1, e2, mul_sum, mul_sum, ← sum_add_distrib]
  exact Finset.sum_congr rfl (fun b _ => by ring)

/-- C20: the contraction in transpose mode is the adjoint. -/
theorem C20_adjoint (A B C J : Nat) (t : Buf α) (u w v z v' z' : Buf α) (ht : B * J ≤ t.len) (hu : A * B * C ≤ u.len)
    (hw : A * J * C ≤ w.len) (hv : A * J * C ≤ v.len) (hz : A * B * C ≤ z.len)
    (h1 : contract A B C J t 0 .noTranspose false u 0 v 0 = .ok v')
    (h2 : contract A J C B t 0 .transpose false w 0 z 0 = .ok z') :
    dotN (A * J * C) v'.val w.val = dotN (A * B * C) u.val z'.val := by
  obtain ⟨r1, e1, _, es1, _⟩ := C20_formula A B C J t 0 .noTranspose false u 0 v 0 (by omega) (by omega) (by omega)
  obtain ⟨r2, e2, _, es2, _⟩ := C20_formula A J C B t 0 .transpose false w 0 z 0 (by rw [Nat.mul_comm J]; omega)
    (by omega) (by omega)
  rw [h1] at e1; cases e1
  rw [h2] at e2; cases e2
  unfold dotN
  rw [Restriction.sum_range_mul _ (A * J) C, Restriction.sum_range_mul _ A J, Restriction.sum_range_mul _ (A * B) C,
    Restriction.sum_range_mul _ A B]
  refine Finset.sum_congr rfl (fun a ha => ?_)
  rw [Finset.sum_comm, Finset.sum_comm (s := range B)]
  refine Finset.sum_congr rfl (fun c hc => ?_)
  have ha' := mem_range.1 ha
  have hc' := mem_range.1 hc
  rw [Finset.sum_congr rfl (fun j hj => by
      have := es1 a ha' j (mem_range.1 hj) c hc'
      simp only [Bool.false_eq_true, if_false, zero_add] at this
      rw [this, sum_mul])]
  symm
  rw [Finset.sum_congr rfl (fun b hb => by
      have := es2 a ha' b (mem_range.1 hb) c hc'
      simp only [Bool.false_eq_true, if_false, zero_add] at this
      rw [this, mul_sum]), Finset.sum_comm]
  refine Finset.sum_congr rfl (fun j _ => Finset.sum_congr rfl (fun b _ => ?_))
  simp only [entry]
  ring

/-- C20: the strided contraction without transpose contracts `u` with each of the `D` matrices into its own part of `v`. -/
theorem C20_strided (A B C D J : Nat) (t u v : Buf α) (ht : D * J * B ≤ t.len) (hu : C * A * B ≤ u.len)
    (hv : C * J * A * D ≤ v.len) :
    ∃ v', contractStrided A B C D J t .noTranspose false u v = .ok v' ∧ v'.len = v.len ∧
      (∀ d < D, ∀ a < A, ∀ j < J, ∀ c < C, v'.val (((d * A + a) * J + j) * C + c) =
        ∑ b ∈ range B, t.val ((d * J + j) * B + b) * u.val ((a * B + b) * C + c)) ∧
      ∀ x, D * A * J * C ≤ x → v'.val x = v.val x :=
  strided_nt ht hu hv

/-- C20: in transpose mode with `add`, the strided contraction adds the contributions of all `D` parts of `u`. -/
theorem C20_strided_transpose_partial (A B C D J : Nat) (t w v : Buf α) (ht : D * J * B ≤ t.len)
    (hw : C * A * J * D ≤ w.len) (hv : C * A * B ≤ v.len) :
    ∃ v', contractStrided A B C D J t .transpose true w v = .ok v' ∧ v'.len = v.len ∧
      ∀ a < A, ∀ b < B, ∀ c < C, v'.val ((a * B + b) * C + c) = v.val ((a * B + b) * C + c) +
        ∑ d ∈ range D, ∑ j ∈ range J, t.val ((d * J + j) * B + b) * w.val (((d * A + a) * J + j) * C + c) := by
  refine ⟨_, strided_t ht hw hv, rfl, fun a ha b hb c hc => ?_⟩
  simp only
  rw [if_pos (enc_lt (enc_lt ha hb) hc)]
  congr 1
  exact cols_eq (nc := A) t.val w.val hb hc

/-- C20 fails for the strided contraction in transpose mode without `add`: each of the `D` steps clears `v`, so that only
the last part of `u` contributes (here 3 instead of 1 + 3). -/
theorem C20_strided_transpose_overwrites_witness :
    ∃ v', contractStrided 1 1 1 2 1 (Buf.ofList [1, 1] : Buf Int) .transpose false (Buf.ofList [1, 3]) (Buf.ofList [0]) =
      .ok v' ∧ v'.toList = [3] := ⟨_, rfl, rfl⟩

/-! ## C21, C22 tensor bases -/

/-- C21: for a tensor basis, `CeedBasisGetInterp` returns the matrix of products of 1D entries, and `CeedBasisApply` is
multiplication by that matrix or its transpose. -/
theorem C21_interp_partial {b : Bas α} {i1 g1 w : Buf α} (hb : TensorBasis b i1 g1 w) :
    ∃ m, getInterp b = .ok (some m) ∧
      (∀ q < b.Q, ∀ n < b.P, m.val (q * b.P + n) =
        ∏ d ∈ range b.dim, i1.val (coord b.Q1 d q * b.P1 + coord b.P1 d n)) ∧
      MulBy b .interp m ∧ MulByT b .interp m := by
  obtain ⟨hT, hi, _, _⟩ := tensorOK_of hb
  obtain ⟨m, e, _, a⟩ := getInterp_tensor hT
  refine ⟨m, e, fun q hq n hn => ?_, hT.mulBy_interp a, hT.mulByT_interp a⟩
  rw [a q hq n hn]
  unfold Bas.KI kron
  exact Finset.prod_congr rfl (fun d _ => hi _ _)

/-- C22: for a tensor basis, `CeedBasisGetGrad` returns the matrices of products of 1D entries with one factor
differentiated, and `CeedBasisApply` is multiplication by them, whichever of the three strategies is used. -/
theorem C22_grad_partial {b : Bas α} {i1 g1 w : Buf α} (hb : TensorBasis b i1 g1 w) :
    ∃ m, getGrad b = .ok (some m) ∧
      (∀ c < b.dim, ∀ q < b.Q, ∀ n < b.P, m.val ((c * b.Q + q) * b.P + n) =
        ∏ d ∈ range b.dim, (if c = d then g1 else i1).val (coord b.Q1 d q * b.P1 + coord b.P1 d n)) ∧
      MulBy b .grad m ∧ MulByT b .grad m := by
  obtain ⟨hT, hi, hg, _⟩ := tensorOK_of hb
  obtain ⟨m, e, _, a⟩ := getGrad_tensor hT
  refine ⟨m, e, fun c hc q hq n hn => ?_, hT.mulBy_grad a, hT.mulByT_grad a⟩
  rw [a c hc q hq n hn]
  unfold Bas.KG kron
  refine Finset.prod_congr rfl (fun d _ => ?_)
  by_cases h : c = d
  · simp only [if_pos h]; exact hg _ _
  · simp only [if_neg h]; exact hi _ _

/-- The same for non-tensor bases: every mode the basis provides is multiplication by the matrix given at creation. -/
theorem C21_nontensor {b : Bas α} {sp : Space} {i d w : Buf α} (hb : NonTensorBasis b sp i d w) :
    (∃ m, getInterp b = .ok (some m) ∧ m.val = i.val ∧ MulBy b .interp m ∧ MulByT b .interp m) ∧
    ∃ m, m.val = d.val ∧ MulBy b sp.mode m ∧ MulByT b sp.mode m := by
  obtain ⟨⟨m, h1, h2, h3⟩, ⟨m', h4, h5⟩, _⟩ := usesMat_of hb
  exact ⟨⟨m, h2, h3, h1.mulBy, h1.mulByT⟩, m', h5, h4.mulBy, h4.mulByT⟩

/-- C21 without exactness: if the collocation test also accepts some `e ≠ 0` (the code accepts `|e| < 1e-14`), a basis
whose interpolation matrix is `[1 e; 0 1]` is applied as the identity, while `CeedBasisGetInterp` returns the given
matrix, whose product with `(0, 1)` is `(e, 1)`. -/
theorem C21_tolerance_witness (near : α → Bool) (h0 : near 0 = true) (e : α) (he : near e = true) (junk : Nat → Nat → α) :
    ∃ b m v', createTensorH1 near (fun _ _ _ _ => .ub) 1 1 2 2 ⟨4, fun i => if i = 0 ∨ i = 3 then 1 else if i = 1 then e else 0⟩
        ⟨4, fun _ => 0⟩ ⟨2, fun _ => 1⟩ = .ok b ∧ getInterp b = .ok (some m) ∧
      apply b junk 1 .noTranspose .interp (some ⟨2, fun i => if i = 1 then 1 else 0⟩) ⟨2, fun _ => 0⟩ = .ok v' ∧
      v'.val 0 = 0 ∧ rowTimes b 1 m ⟨2, fun i => if i = 1 then 1 else 0⟩ 0 0 0 0 = e := by
  have hc : colloTest near 2 2 (⟨4, fun i => if i = 0 ∨ i = 3 then 1 else if i = 1 then e else 0⟩ : Buf α) = .ok true := by
    simp [colloTest, loop, Buf.rd, h0, he]
  refine ⟨{ isTensor := true, isH1 := true, dim := 1, nc := 1, P1 := 2, Q1 := 2, P := 2, Q := 2,
            interp1 := ⟨4, fun i => if i = 0 ∨ i = 3 then 1 else if i = 1 then e else 0⟩, grad1 := ⟨4, fun _ => 0⟩,
            qWeight := ⟨2, fun _ => 1⟩, interp := none, grad := none, div := none, curl := none, colloInterp := true,
            colloGrad := none }, ?_⟩
  refine ⟨⟨4, fun i => if i = 0 ∨ i = 3 then 1 else if i = 1 then e else 0⟩, ⟨2, fun i => if i = 1 then 1 else 0⟩,
    ?_, ?_, ?_, rfl, ?_⟩
  · unfold createTensorH1
    simp [Restriction.copyIn, hc, colloOpt]
  · simp only [getInterp, if_true]
    simp [Buf.fill, loop, Buf.rd, Buf.wr]
    funext j
    rcases j with _ | _ | _ | _ | j <;> simp
  · simp [apply, checkDims, applyCore, tensorInterp, memcpy, Bas.qComp]
    funext i
    rcases i with _ | _ | i <;> simp
  · simp [rowTimes, nodePos]

/-! ## C23 adjoint and accumulation -/

/-- Multiplication by a matrix and by its transpose are adjoint. -/
theorem mulBy_adjoint {b : Bas α} {em : EMode} {m : Buf α} (h1 : MulBy b em m) (h2 : MulByT b em m)
    {junk junk' : Nat → Nat → α} {ne : Nat} {u w v v' z z' : Buf α} (hu : ne * b.nc * b.P ≤ u.len)
    (hw : ne * b.nc * b.Q * b.qComp em ≤ w.len) (hv : ne * b.Q * b.nc * b.qComp em ≤ v.len)
    (hz : ne * b.nc * b.P ≤ z.len) (e1 : apply b junk ne .noTranspose em (some u) v = .ok v')
    (e2 : apply b junk' ne .transpose em (some w) z = .ok z') :
    dotN (b.qComp em * b.nc * b.Q * ne) v'.val w.val = dotN (b.nc * b.P * ne) u.val z'.val := by
  obtain ⟨r1, f1, _, a1, _⟩ := h1 junk ne u v hu hv
  obtain ⟨r2, f2, _, a2, _⟩ := h2 junk' ne w z hw hz
  rw [e1] at f1; cases f1
  rw [e2] at f2; cases f2
  unfold dotN
  rw [Restriction.sum_range_mul _ (b.qComp em * b.nc * b.Q) ne, Restriction.sum_range_mul _ (b.qComp em * b.nc) b.Q,
    Restriction.sum_range_mul _ (b.qComp em) b.nc, Restriction.sum_range_mul _ (b.nc * b.P) ne,
    Restriction.sum_range_mul _ b.nc b.P]
  rw [Finset.sum_congr rfl (fun c hc => Finset.sum_congr rfl (fun k hk => Finset.sum_congr rfl (fun q hq =>
    Finset.sum_congr rfl (fun e he => by
      rw [show ((c * b.nc + k) * b.Q + q) * ne + e = quadPos b.nc b.Q ne c k q e from rfl,
        a1 c (mem_range.1 hc) k (mem_range.1 hk) q (mem_range.1 hq) e (mem_range.1 he)]))))]
  symm
  rw [Finset.sum_congr rfl (fun k hk => Finset.sum_congr rfl (fun n hn => Finset.sum_congr rfl (fun e he => by
      rw [show (k * b.P + n) * ne + e = nodePos b.P ne k n e from rfl,
        a2 k (mem_range.1 hk) n (mem_range.1 hn) e (mem_range.1 he)])))]
  symm
  rw [Finset.sum_comm]
  refine Finset.sum_congr rfl (fun k _ => ?_)
  -- both sides are sums over c, q, e, n
  have lhs : ∀ f : Nat → Nat → Nat → Nat → α,
      ∑ c ∈ range (b.qComp em), ∑ q ∈ range b.Q, ∑ e ∈ range ne, ∑ n ∈ range b.P, f c q e n =
      ∑ n ∈ range b.P, ∑ e ∈ range ne, ∑ c ∈ range (b.qComp em), ∑ q ∈ range b.Q, f c q e n := by
    intro f
    rw [Finset.sum_congr rfl (fun c _ => by
      rw [Finset.sum_comm, Finset.sum_congr rfl (fun e _ => by rw [Finset.sum_comm])])]
    rw [Finset.sum_comm, Finset.sum_congr rfl (fun e _ => by rw [Finset.sum_comm]), Finset.sum_comm]
  simp only [rowTimes, colTimes, sum_mul, mul_sum]
  rw [lhs]
  exact Finset.sum_congr rfl (fun n _ => Finset.sum_congr rfl (fun e _ => Finset.sum_congr rfl (fun c _ =>
    Finset.sum_congr rfl (fun q _ => by ring))))

/-- C23, tensor bases: in the modes interpolation and gradient the transpose application is the adjoint. -/
theorem C23_adjoint_tensor {b : Bas α} {i1 g1 wt : Buf α} (hb : TensorBasis b i1 g1 wt) {em : EMode}
    (hem : em = .interp ∨ em = .grad) {junk junk' : Nat → Nat → α} {ne : Nat} {u w v v' z z' : Buf α}
    (hu : ne * b.nc * b.P ≤ u.len)
    (hw : ne * b.nc * b.Q * b.qComp em ≤ w.len) (hv : ne * b.Q * b.nc * b.qComp em ≤ v.len)
    (hz : ne * b.nc * b.P ≤ z.len) (e1 : apply b junk ne .noTranspose em (some u) v = .ok v')
    (e2 : apply b junk' ne .transpose em (some w) z = .ok z') :
    dotN (b.qComp em * b.nc * b.Q * ne) v'.val w.val = dotN (b.nc * b.P * ne) u.val z'.val := by
  rcases hem with rfl | rfl
  · obtain ⟨m, _, _, h1, h2⟩ := C21_interp_partial hb
    exact mulBy_adjoint h1 h2 hu hw hv hz e1 e2
  · obtain ⟨m, _, _, h1, h2⟩ := C22_grad_partial hb
    exact mulBy_adjoint h1 h2 hu hw hv hz e1 e2

/-- C23, non-tensor bases: interpolation and the derivative of the space. -/
theorem C23_adjoint_nontensor {b : Bas α} {sp : Space} {i d wt : Buf α} (hb : NonTensorBasis b sp i d wt) {em : EMode}
    (hem : em = .interp ∨ em = sp.mode) {junk junk' : Nat → Nat → α} {ne : Nat} {u w v v' z z' : Buf α}
    (hu : ne * b.nc * b.P ≤ u.len)
    (hw : ne * b.nc * b.Q * b.qComp em ≤ w.len) (hv : ne * b.Q * b.nc * b.qComp em ≤ v.len)
    (hz : ne * b.nc * b.P ≤ z.len) (e1 : apply b junk ne .noTranspose em (some u) v = .ok v')
    (e2 : apply b junk' ne .transpose em (some w) z = .ok z') :
    dotN (b.qComp em * b.nc * b.Q * ne) v'.val w.val = dotN (b.nc * b.P * ne) u.val z'.val := by
  obtain ⟨⟨m, _, _, h1, h2⟩, m', _, h3, h4⟩ := C21_nontensor hb
  rcases hem with rfl | rfl
  · exact mulBy_adjoint h1 h2 hu hw hv hz e1 e2
  · exact mulBy_adjoint h3 h4 hu hw hv hz e1 e2

/-- C23: `CeedBasisApplyAdd` adds to the contents of the output what `CeedBasisApply` computes. For tensor bases this is
proved when the quadrature points are not collocated with the nodes; see the witnesses below for the other case. -/
theorem C23_applyAdd_tensor_partial {b : Bas α} {i1 g1 wt : Buf α} (hb : TensorBasis b i1 g1 wt)
    (hc : b.colloInterp = false) :
    (∃ m, getInterp b = .ok (some m) ∧ MulByT b .interp m ∧ AddByT b .interp m) ∧
    ∃ m, getGrad b = .ok (some m) ∧ MulByT b .grad m ∧ AddByT b .grad m := by
  obtain ⟨hT, _⟩ := tensorOK_of hb
  obtain ⟨m, e, _, a⟩ := getInterp_tensor hT
  obtain ⟨m', e', _, a'⟩ := getGrad_tensor hT
  exact ⟨⟨m, e, hT.mulByT_interp a, hT.addByT_interp hc a⟩, m', e', hT.mulByT_grad a', hT.addByT_grad hc a'⟩

/-- C23: `CeedBasisApplyAdd` for non-tensor bases. -/
theorem C23_applyAdd_nontensor {b : Bas α} {sp : Space} {i d wt : Buf α} (hb : NonTensorBasis b sp i d wt) :
    (∃ m, m.val = i.val ∧ MulByT b .interp m ∧ AddByT b .interp m) ∧
    ∃ m, m.val = d.val ∧ MulByT b sp.mode m ∧ AddByT b sp.mode m := by
  obtain ⟨⟨m, h1, h2, h3⟩, ⟨m', h4, h5⟩, _⟩ := usesMat_of hb
  exact ⟨⟨m, h3, h1.mulByT, h1.addByT⟩, m', h5, h4.mulByT, h4.addByT⟩

/-- `CeedBasisApplyAdd` without transpose is rejected. -/
theorem C23_applyAdd_noTranspose (b : Bas α) (junk : Nat → Nat → α) (ne : Nat) (em : EMode) (u : Option (Buf α))
    (v : Buf α) : applyAdd b junk ne .noTranspose em u v = .err .unsupported := rfl

/-- A 1D basis with two nodes collocated with its two quadrature points, derivative matrix `[-1 1; -1 1]`. -/
def collocated : Bas Int where
  isTensor := true
  isH1 := true
  dim := 1
  nc := 1
  P1 := 2
  Q1 := 2
  P := 2
  Q := 2
  interp1 := Buf.ofList [1, 0, 0, 1]
  grad1 := Buf.ofList [-1, 1, -1, 1]
  qWeight := Buf.ofList [1, 1]
  interp := none
  grad := none
  div := none
  curl := none
  colloInterp := true
  colloGrad := none

/-- `collocated` is what the creation function returns. -/
theorem collocated_created : createTensorH1 (fun a => decide (a = 0)) (fun _ _ _ _ => .ub) 1 1 2 2
    (Buf.ofList [1, 0, 0, 1]) (Buf.ofList [-1, 1, -1, 1]) (Buf.ofList [1, 1] : Buf Int) = .ok collocated := by rfl

/-- C23 fails with collocated points: `CeedBasisApplyAdd` in interpolation mode overwrites the output (result `[1, 2]`
instead of `[11, 22]`). -/
theorem C23_applyAdd_interp_overwrites_witness :
    ∃ v', applyAdd collocated (fun _ _ => 0) 1 .transpose .interp (some (Buf.ofList [1, 2])) (Buf.ofList [10, 20]) =
      .ok v' ∧ v'.toList = [1, 2] := ⟨_, rfl, rfl⟩

/-- C23 fails with collocated points: `CeedBasisApplyAdd` in gradient mode overwrites the output (result `[-3, 3]`
instead of `[7, 23]`). -/
theorem C23_applyAdd_grad_overwrites_witness :
    ∃ v', applyAdd collocated (fun _ _ => 0) 1 .transpose .grad (some (Buf.ofList [1, 2])) (Buf.ofList [10, 20]) =
      .ok v' ∧ v'.toList = [-3, 3] := ⟨_, rfl, rfl⟩

/-! ## C24 weights -/

/-- C24: for a tensor basis `CEED_EVAL_WEIGHT` stores at every point of every element the product of the 1D weights of
its coordinates, for at least one element. -/
theorem C24_weight_tensor {b : Bas α} {i1 g1 w : Buf α} (hb : TensorBasis b i1 g1 w) (junk : Nat → Nat → α) {ne : Nat}
    (hne : 0 < ne) {u : Option (Buf α)} {v : Buf α} (hv : ne * b.Q ≤ v.len) :
    ∃ v', apply b junk ne .noTranspose .weight u v = .ok v' ∧ v'.len = v.len ∧
      (∀ q < b.Q, ∀ e < ne, v'.val (q * ne + e) = ∏ d ∈ range b.dim, w.val (coord b.Q1 d q)) ∧
      ∀ x, b.Q * ne ≤ x → v'.val x = v.val x := by
  obtain ⟨hT, _, _, hw⟩ := tensorOK_of hb
  obtain ⟨v', e, l, a, c⟩ := tensorWeight_eq hT.dim hT.hQ hT.weight.ge hne hv
  refine ⟨v', ?_, l, fun q hq e he => ?_, c⟩
  · unfold apply checkDims
    rw [Res.check_true (by simpa using hv), Res.bind_ok]
    unfold applyCore
    rw [Res.check_true (by simp)]
    simp only [Res.bind_ok, reduceCtorEq, false_and, if_false, hT.tensor, if_true]
    rw [Res.check_true trivial, Res.bind_ok, e]
  · rw [a q hq e he]
    exact Finset.prod_congr rfl (fun d _ => hw _)

/-- C24: for a non-tensor basis the weights given at creation are stored. -/
theorem C24_weight_nontensor {b : Bas α} {sp : Space} {i d w : Buf α} (hb : NonTensorBasis b sp i d w)
    (junk : Nat → Nat → α) {ne : Nat} {u : Option (Buf α)} {v : Buf α} (hv : ne * b.Q ≤ v.len) :
    ∃ v', apply b junk ne .noTranspose .weight u v = .ok v' ∧ v'.len = v.len ∧
      (∀ q < b.Q, ∀ e < ne, v'.val (q * ne + e) = w.val q) ∧ ∀ x, b.Q * ne ≤ x → v'.val x = v.val x := by
  obtain ⟨_, _, hT, hl, hw⟩ := usesMat_of hb
  have key : Sets (loop b.Q (fun i v => loop ne (fun e v => do
        let w ← b.qWeight.rd i
        v.wr (i * ne + e) w) v)) v.len (fun x => ∃ q < b.Q, ∃ e < ne, x = q * ne + e) (fun x => w.val (x / ne)) := by
    refine Sets.loop (fun q hq => Sets.loop (fun e he => ?_))
    rw [Buf.rd_lt (by omega)]
    simp only [Res.bind_ok]
    refine Sets.wr (by have := enc_lt hq he; rw [Nat.mul_comm] at hv; omega) ?_
    rw [div_enc he, hw]
  obtain ⟨v', e, l, a, c⟩ := key v rfl
  refine ⟨v', ?_, l, fun q hq e he => ?_, fun x hx => c x ?_⟩
  · unfold apply checkDims
    rw [Res.check_true (by simpa using hv), Res.bind_ok]
    unfold applyCore
    rw [Res.check_true (by simp)]
    simp only [Res.bind_ok, reduceCtorEq, false_and, if_false, hT, Bool.false_eq_true]
    rw [Res.check_true trivial, Res.bind_ok, e]
  · rw [a _ ⟨q, hq, e, he, rfl⟩]
    simp only [div_enc he]
  · rintro ⟨q, hq, e, he, rfl⟩
    have := enc_lt hq he
    omega

/-- Quadrature weights cannot be applied in transpose mode. -/
theorem C24_weight_transpose (b : Bas α) (junk : Nat → Nat → α) (ne : Nat) (u : Option (Buf α)) (v : Buf α)
    (hv : ne * b.Q ≤ v.len) : apply b junk ne .transpose .weight u v = .err .backend := by
  obtain ⟨z, e, _, _⟩ := fill_zero v
  unfold apply checkDims
  rw [Res.check_true (by simpa using hv), Res.bind_ok]
  unfold applyCore
  rw [Res.check_true (by simp)]
  simp only [Res.bind_ok, and_self, if_true, e]
  rw [Res.check_false (by simp)]
  split <;> rfl

/-! ## C28 memory safety -/

/-- C28: whatever the arguments, `CeedBasisApply` and `CeedBasisApplyAdd` with a tensor basis access no memory outside
`u` and `v`, except possibly for weights on zero elements. -/
theorem C28_tensor_partial {near : α → Bool} {collo : Nat → Nat → Buf α → Buf α → Res (Buf α)}
    (hcollo : ∀ p q i g m, collo p q i g = .ok m → m.len = q * q) {dim nc P1 Q1 : Int} {i1 g1 w : Buf α} {b : Bas α}
    (h : createTensorH1 near collo dim nc P1 Q1 i1 g1 w = .ok b) (junk : Nat → Nat → α) (ne : Nat) (tm : TMode)
    (em : EMode) (u : Option (Buf α)) (v : Buf α) (hw : em = .weight → 0 < ne) :
    apply b junk ne tm em u v ≠ .ub ∧ applyAdd b junk ne tm em u v ≠ .ub := by
  have hb := shape_of hcollo h
  have core : ∀ ap, (checkDims b ne tm em u v >>= fun _ => applyCore b junk ap ne tm em u v) ≠ .ub := by
    intro ap
    rcases checkDims_cases b ne tm em u v with hg | ⟨hg, hg1, hg2⟩
    · rw [hg]; simp
    rw [hg, Res.bind_ok]
    unfold applyCore
    by_cases hs : u.isSome ∨ em = .weight
    swap
    · rw [Res.check_false hs]; simp
    rw [Res.check_true hs]
    simp only [Res.bind_ok]
    have rest : ∀ z : Buf α, z.len = v.len → (if b.isTensor then
        match em with
        | .interp => tensorInterp b junk (ap || decide (tm = .transpose)) ne tm (u.getD ⟨0, fun _ => 0⟩) z
        | .grad => tensorGrad b junk ap (ap || decide (tm = .transpose)) ne tm (u.getD ⟨0, fun _ => 0⟩) z
        | .weight => do
          Res.check (tm = .noTranspose) .backend
          tensorWeight b ne z
        | _ => .err .backend
        else Res.ub) ≠ .ub := by
      intro z lz
      rw [if_pos hb.tensor]
      cases em with
      | none => simp
      | div => simp
      | curl => simp
      | weight =>
        simp only
        by_cases ht : tm = .noTranspose
        · rw [Res.check_true ht, Res.bind_ok]
          obtain ⟨v', e, _⟩ := tensorWeight_eq (v := z) hb.dim hb.hQ hb.weight.ge (hw rfl) (by rw [lz]; exact hg1 rfl)
          rw [e]; simp
        · rw [Res.check_false ht]; simp
      | interp =>
        obtain ⟨u', rfl⟩ : ∃ u', u = some u' := by
          rcases hs with h | h
          · exact Option.isSome_iff_exists.1 h
          · cases h
        obtain ⟨v', e, _⟩ := hb.interp junk (ap || decide (tm = .transpose)) (ne := ne) tm (u := u') (v := z) (by
          have hg := hg2 (by simp) u' rfl
          rw [lz]
          cases tm <;> simp only [Bas.qComp, hb.h1, if_true, mul_one] at hg ⊢
          · refine ⟨hg.1, ?_⟩
            rw [show ne * b.nc * b.Q = ne * b.Q * b.nc by ring]; exact hg.2
          · exact hg)
        simp only [Option.getD_some, e]; simp
      | grad =>
        obtain ⟨u', rfl⟩ : ∃ u', u = some u' := by
          rcases hs with h | h
          · exact Option.isSome_iff_exists.1 h
          · cases h
        obtain ⟨v', e, _⟩ := hb.grad junk ap (ap || decide (tm = .transpose)) (ne := ne) tm (u := u') (v := z) (by
          have hg := hg2 (by simp) u' rfl
          rw [lz]
          cases tm <;> simp only [Bas.qComp] at hg ⊢
          · refine ⟨hg.1, ?_⟩
            rw [show ne * b.nc * b.Q * b.dim = ne * b.Q * b.nc * b.dim by ring]; exact hg.2
          · exact hg)
        simp only [Option.getD_some, e]; simp
    simp only [hb.tensor, if_true] at rest ⊢
    split
    · obtain ⟨z, e, lz, _⟩ := fill_zero v
      rw [e, Res.bind_ok]
      exact rest z lz
    · exact rest v rfl
  refine ⟨core false, ?_⟩
  unfold applyAdd
  by_cases ht : tm = .transpose
  · rw [Res.check_true ht, Res.bind_ok]; exact core true
  · rw [Res.check_false ht]; simp

/-- C28: whatever the vectors, `CeedBasisApply` and `CeedBasisApplyAdd` with a non-tensor basis access no memory outside
`u` and `v` in the modes the function space provides. -/
theorem C28_nontensor_partial {b : Bas α} {sp : Space} {i d w : Buf α} (hb : NonTensorBasis b sp i d w)
    (junk : Nat → Nat → α) (ne : Nat) (tm : TMode) {em : EMode}
    (hem : em = .interp ∨ em = sp.mode ∨ em = .weight ∨ em = .none) (u : Option (Buf α)) (v : Buf α) :
    apply b junk ne tm em u v ≠ .ub ∧ applyAdd b junk ne tm em u v ≠ .ub := by
  obtain ⟨⟨mi, hmi, _, _⟩, ⟨md, hmd, _⟩, hT, hl, _⟩ := usesMat_of hb
  have core : ∀ ap, (checkDims b ne tm em u v >>= fun _ => applyCore b junk ap ne tm em u v) ≠ .ub := by
    intro ap
    rcases checkDims_cases b ne tm em u v with hg | ⟨hg, hg1, hg2⟩
    · rw [hg]; simp
    rw [hg, Res.bind_ok]
    unfold applyCore
    by_cases hs : u.isSome ∨ em = .weight
    swap
    · rw [Res.check_false hs]; simp
    rw [Res.check_true hs]
    simp only [Res.bind_ok, hT, Bool.false_eq_true, if_false]
    have strided : ∀ (m : Buf α) (z : Buf α), em ≠ .weight → z.len = v.len → UsesMat b em m →
        contractStrided b.nc b.P ne (b.qComp em) b.Q m tm (ap || decide (tm = .transpose))
          (u.getD ⟨0, fun _ => 0⟩) z ≠ .ub := by
      intro m z hw lz hm
      obtain ⟨u', rfl⟩ : ∃ u', u = some u' := by
        rcases hs with h | h
        · exact Option.isSome_iff_exists.1 h
        · exact absurd h hw
      obtain ⟨v', e, _⟩ := strided_safe (nc := b.nc) (P := b.P) (ne := ne) (qc := b.qComp em) (Q := b.Q) (m := m)
        (u := u') (v := z) (tm := tm) (add := ap || decide (tm = .transpose)) hm.2.1 (by
          rw [lz]
          exact hg2 hw u' rfl)
      simp only [Option.getD_some, e]; simp
    have weight : ∀ z : Buf α, em = .weight → z.len = v.len → (do
        Res.check (tm = .noTranspose) .backend
        loop b.Q (fun i v => loop ne (fun e v => do
          let w ← b.qWeight.rd i
          v.wr (i * ne + e) w) v) z : Res (Buf α)) ≠ .ub := by
      intro z hw lz
      subst hw
      by_cases ht : tm = .noTranspose
      · rw [Res.check_true ht, Res.bind_ok]
        have hv : ne * b.Q ≤ v.len := hg1 rfl
        obtain ⟨v', e, _⟩ := Safe.loop (n := b.Q) (L := v.len) (body := fun i v => loop ne (fun e v => do
          let w ← b.qWeight.rd i
          v.wr (i * ne + e) w) v) (fun q hq => Safe.loop (fun e he w hw => by
            rw [Buf.rd_lt (by omega), Res.bind_ok]
            have := enc_lt hq he
            rw [Buf.wr_lt (by rw [hw]; rw [Nat.mul_comm] at hv; omega)]
            exact ⟨_, rfl, hw⟩)) z lz
        rw [e]; simp
      · rw [Res.check_false ht]; simp
    obtain ⟨z, ez, lz, _⟩ := fill_zero v
    have hu : em = .weight ∨ em = .none ∨ ∃ m, UsesMat b em m := by
      rcases hem with rfl | rfl | rfl | rfl
      · exact Or.inr (Or.inr ⟨_, hmi⟩)
      · exact Or.inr (Or.inr ⟨_, hmd⟩)
      · exact Or.inl rfl
      · exact Or.inr (Or.inl rfl)
    rw [ez]
    simp only [Res.bind_ok]
    rcases hu with h | h | ⟨m, h⟩
    · have k1 := weight z h lz
      have k2 := weight v h rfl
      clear hg1 hg2 hem strided weight
      subst h
      simp only
      split
      · exact k1
      · exact k2
    · clear hg1 hg2 hem strided weight
      subst h
      simp only
      split <;> simp
    · have hne : em ≠ .weight := by rcases h.2.2 with h | h | h | h <;> rw [h.1] <;> simp
      have k1 := strided m z hne lz h
      have k2 := strided m v hne rfl h
      have h2 := h.2.2
      clear hg1 hg2 hem strided weight h hs hg hne
      rcases h2 with h | h | h | h <;> obtain ⟨rfl, h⟩ := h <;>
        simp only [getInterp, getGrad, deref, h, Res.bind_ok] <;> split <;> first | exact k1 | exact k2
  refine ⟨core false, ?_⟩
  unfold applyAdd
  by_cases ht : tm = .transpose
  · rw [Res.check_true ht, Res.bind_ok]; exact core true
  · rw [Res.check_false ht]; simp

/-- C28 fails: the divergence of an H1 basis is accepted by the checks and dereferences a null matrix. -/
theorem C28_null_matrix_witness : ∃ b, createNonTensor .h1 2 1 1 1 (Buf.ofList [1]) (Buf.ofList [1, 1])
      (Buf.ofList [1] : Buf Int) = .ok b ∧
    apply b (fun _ _ => 0) 1 .noTranspose .div (some (Buf.ofList [1])) (Buf.ofList [0]) = .ub := ⟨_, rfl, rfl⟩

/-- C28 fails: for zero elements and an empty output, the weights of a tensor basis of dimension two read `v[0]`. -/
theorem C28_weight_no_elements_witness : ∃ b, createTensorH1 (fun a => decide (a = 0)) (fun _ _ _ _ => .ub) 2 1 1 1
      (Buf.ofList [1]) (Buf.ofList [0]) (Buf.ofList [2] : Buf Int) = .ok b ∧
    apply b (fun _ _ => 0) 0 .noTranspose .weight none (Buf.ofList []) = .ub := ⟨_, rfl, rfl⟩

/-! ## The hypotheses are satisfiable -/

/-- A tensor basis with collocated points. -/
example : TensorBasis collocated (Buf.ofList [1, 0, 0, 1]) (Buf.ofList [-1, 1, -1, 1]) (Buf.ofList [1, 1]) :=
  ⟨_, _, _, _, _, _, collocated_created, fun _ => by decide, fun cg h => by cases h⟩

/-- Dimension 3, two components, one node, two quadrature points; the collocated gradient is used. -/
example : ∃ b, TensorBasis b (Buf.ofList [1, 1]) (Buf.ofList [0, 0]) (Buf.ofList [1, 1] : Buf Int) ∧
    b.colloInterp = false ∧ b.colloGrad.isSome ∧ b.Q = 8 := by
  refine ⟨_, ⟨fun a => decide (a = 0), fun _ _ _ _ => .ok (Buf.ofList [-1, 1, -1, 1]), 3, 2, 1, 2, rfl, ?_, ?_⟩,
    rfl, rfl, rfl⟩
  · intro h; cases h
  · intro cg h
    cases h
    exact ⟨rfl, by decide⟩

/-- More nodes than quadrature points: neither special strategy. -/
example : ∃ b, TensorBasis b (Buf.ofList [1, 2]) (Buf.ofList [3, 4]) (Buf.ofList [1] : Buf Int) ∧
    b.colloInterp = false ∧ b.colloGrad = none ∧ b.P = 4 := by
  refine ⟨_, ⟨fun a => decide (a = 0), fun _ _ _ _ => .ub, 2, 1, 2, 1, rfl, ?_, ?_⟩, rfl, rfl, rfl⟩
  · intro h; cases h
  · intro cg h; cases h

/-- An H(div) basis. -/
example : ∃ b, NonTensorBasis b .hdiv (Buf.ofList [1, 2, 3, 4]) (Buf.ofList [5, 6]) (Buf.ofList [1] : Buf Int) ∧
    b.qComp .interp = 2 := ⟨_, ⟨2, 1, 2, 1, rfl⟩, rfl⟩

end Basis
end Verif
