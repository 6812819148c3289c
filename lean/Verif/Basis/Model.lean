import Verif.Restriction.Model

/-!
# Bases: tensor contractions and the reference application

Scalars are an arbitrary commutative ring, vectors are arrays (`Buf`). Sizes and the number of elements are natural
numbers; the variable length arrays of size zero that the C code declares for zero elements are treated as empty arrays
(GNU C). Locks on the vectors are the subject of `Verif/Vector`.
-/

namespace Verif
namespace Basis

open Restriction (TMode)

variable {α : Type _} [CommRing α]

/-- `t_stride_0`, `t_stride_1` of `backends/ref/ceed-ref-tensor.c` 18-23 and `backends/opt/ceed-opt-tensor.c` 19-24. -/
def tStride (tm : TMode) (B J : Nat) : Nat × Nat :=
  match tm with
  | .noTranspose => (B, 1)
  | .transpose => (1, J)

/-- `backends/ref/ceed-ref-tensor.c` 16-38 `CeedTensorContractApply_Ref`, on the pointers `t + tof`, `u + uo`, `v + vo`
(the C function receives shifted pointers). -/
def contract (A B C J : Nat) (t : Buf α) (tof : Nat) (tm : TMode) (add : Bool) (u : Buf α) (uo : Nat) (v : Buf α)
    (vo : Nat) : Res (Buf α) := do
  let s := tStride tm B J
  let v ← if add then Res.ok v else loop (A * J * C) (fun q v => v.wr (vo + q) 0) v
  loop A (fun a v => loop B (fun b v => loop J (fun j v => do
    let tq ← t.rd (tof + (j * s.1 + b * s.2))
    loop C (fun c v => do
      let x ← u.rd (uo + ((a * B + b) * C + c))
      v.addAt (vo + ((a * J + j) * C + c)) (tq * x)) v) v) v) v

/-- `backends/opt/ceed-opt-tensor.c` 16-37 `CeedTensorContractApply_Core_Opt`. -/
def contractCoreOpt (A B C J : Nat) (t : Buf α) (tof : Nat) (tm : TMode) (u : Buf α) (uo : Nat) (v : Buf α)
    (vo : Nat) : Res (Buf α) := do
  let s := tStride tm B J
  loop A (fun a v => loop B (fun b v => loop J (fun j v => do
    let tq ← t.rd (tof + (j * s.1 + b * s.2))
    loop C (fun c v => do
      let x ← u.rd (uo + ((a * B + b) * C + c))
      v.addAt (vo + ((a * J + j) * C + c)) (tq * x)) v) v) v) v

/-- `backends/opt/ceed-opt-tensor.c` 42-52 `CeedTensorContractApply_Opt`. -/
def contractOpt (A B C J : Nat) (t : Buf α) (tof : Nat) (tm : TMode) (add : Bool) (u : Buf α) (uo : Nat) (v : Buf α)
    (vo : Nat) : Res (Buf α) := do
  let v ← if add then Res.ok v else loop (A * J * C) (fun q v => v.wr (vo + q) 0) v
  if C = 1 then contractCoreOpt A B 1 J t tof tm u uo v vo else contractCoreOpt A B C J t tof tm u uo v vo

/-- `interface/ceed-tensor.c` 99-112 `CeedTensorContractStridedApply`. -/
def contractStrided (A B C D J : Nat) (t : Buf α) (tm : TMode) (add : Bool) (u v : Buf α) : Res (Buf α) :=
  match tm with
  | .transpose => loop D (fun d v => contract A J C B t (d * B * J) tm add u (d * A * J * C) v 0) v
  | .noTranspose => loop D (fun d v => contract A B C J t (d * B * J) tm add u 0 v (d * A * J * C)) v

/-- `CeedEvalMode`. -/
inductive EMode
  | none | interp | grad | div | curl | weight
deriving DecidableEq, Repr

/-- The part of `struct CeedBasis_private` (`include/ceed-impl.h`) and `CeedBasis_Ref` (`backends/ref/ceed-ref.h`)
read by the application of a basis. `none` is a null pointer. `qWeight` is `q_weight_1d` (all the weights for a
non-tensor basis). -/
structure Bas (α : Type _) where
  isTensor : Bool
  isH1 : Bool
  dim : Nat
  nc : Nat
  P1 : Nat
  Q1 : Nat
  P : Nat
  Q : Nat
  interp1 : Buf α
  grad1 : Buf α
  qWeight : Buf α
  interp : Option (Buf α)
  grad : Option (Buf α)
  div : Option (Buf α)
  curl : Option (Buf α)
  colloInterp : Bool
  colloGrad : Option (Buf α)

/-- `interface/ceed-basis.c` 841-867 `CeedBasisGetNumQuadratureComponents`. -/
def Bas.qComp (b : Bas α) : EMode → Nat
  | .interp => if b.isH1 then 1 else b.dim
  | .grad => b.dim
  | .div => 1
  | .curl => if b.dim < 3 then 1 else b.dim
  | .none => 1
  | .weight => 1

/-- Pointer dereference: null is undefined behaviour. -/
def deref (p : Option (Buf α)) : Res (Buf α) :=
  match p with
  | some b => .ok b
  | none => .ub

/-- `interface/ceed-basis.c` 2217-2239 `CeedBasisGetInterp` on a tensor basis whose matrix has not been built; a matrix
already present is returned. The pointer returned may be null for other bases. -/
def getInterp (b : Bas α) : Res (Option (Buf α)) :=
  match b.interp with
  | some m => .ok (some m)
  | none =>
    if b.isTensor then do
      let m ← Buf.fill (b.Q * b.P) 1 ⟨b.Q * b.P, fun _ => 0⟩
      let m ← loop b.dim (fun d m => loop b.Q (fun qpt m => loop b.P (fun node m => do
        let p := node / b.P1 ^ d % b.P1
        let q := qpt / b.Q1 ^ d % b.Q1
        let x ← m.rd (qpt * b.P + node)
        let y ← b.interp1.rd (q * b.P1 + p)
        m.wr (qpt * b.P + node) (x * y)) m) m) m
      .ok (some m)
    else .ok none

/-- `interface/ceed-basis.c` 2270-2295 `CeedBasisGetGrad`. -/
def getGrad (b : Bas α) : Res (Option (Buf α)) :=
  match b.grad with
  | some m => .ok (some m)
  | none =>
    if b.isTensor then do
      let m ← Buf.fill (b.dim * b.Q * b.P) 1 ⟨b.dim * b.Q * b.P, fun _ => 0⟩
      let m ← loop b.dim (fun d m => loop b.dim (fun i m => loop b.Q (fun qpt m => loop b.P (fun node m => do
        let p := node / b.P1 ^ d % b.P1
        let q := qpt / b.Q1 ^ d % b.Q1
        let x ← m.rd ((i * b.Q + qpt) * b.P + node)
        let y ← (if i = d then b.grad1 else b.interp1).rd (q * b.P1 + p)
        m.wr ((i * b.Q + qpt) * b.P + node) (x * y)) m) m) m) m
      .ok (some m)
    else .ok none

/-- State of the loop over directions that passes data through the two temporary arrays. -/
structure ChainSt (α : Type _) where
  pre : Nat
  post : Nat
  tmp0 : Buf α
  tmp1 : Buf α
  out : Buf α

/-- The loop `for (d = 0; d < dim; d++) { contract(pre, P, post, Q, mat(d), t_mode, add && d == dim-1,
d == 0 ? u : tmp[d % 2], d == dim-1 ? v : tmp[(d+1) % 2]); pre /= P; post *= Q; }` of
`backends/ref/ceed-ref-basis.c` 71-79 (interpolation), 103-111 and 120-128 (gradient through `collo_grad_1d`; first
loop without, second loop with transpose) and 158-169 (gradient otherwise), with
`tmp[2][size]`. `junk` is the contents of the uninitialised array `tmp`. -/
def chain (dim nc ne P Q size : Nat) (mat : Nat → Buf α) (tm : TMode) (addLast : Bool) (junk : Nat → Nat → α)
    (u : Buf α) (uo : Nat) (v : Buf α) (vo : Nat) : Res (Buf α) := do
  let s ← loop dim (fun d (s : ChainSt α) => do
    let (src, so) := if d = 0 then (u, uo) else if d % 2 = 0 then (s.tmp0, 0) else (s.tmp1, 0)
    let s ←
      if d = dim - 1 then do
        let o ← contract s.pre P s.post Q (mat d) 0 tm addLast src so s.out vo
        Res.ok { s with out := o }
      else if (d + 1) % 2 = 0 then do
        let o ← contract s.pre P s.post Q (mat d) 0 tm false src so s.tmp0 0
        Res.ok { s with tmp0 := o }
      else do
        let o ← contract s.pre P s.post Q (mat d) 0 tm false src so s.tmp1 0
        Res.ok { s with tmp1 := o }
    Res.ok { s with pre := s.pre / P, post := s.post * Q })
    { pre := nc * P ^ (dim - 1), post := ne, tmp0 := ⟨size, junk 0⟩, tmp1 := ⟨size, junk 1⟩, out := v }
  .ok s.out

/-- The loop over directions without intermediate arrays: `for (d = 0; d < dim; d++) { contract(pre, P, post, Q, mat,
t_mode, add(d), u + uo(d), v + vo(d)); pre /= P; post *= Q; }`, `backends/ref/ceed-ref-basis.c` 103-111 with transpose
and 120-128 without transpose (gradient through `collo_grad_1d`), 138-144 (collocated quadrature points). -/
def sweep (dim nc ne P Q : Nat) (mat : Buf α) (tm : TMode) (add : Nat → Bool) (u : Buf α) (uo : Nat → Nat) (v : Buf α)
    (vo : Nat → Nat) : Res (Buf α) := do
  let s ← loop dim (fun d (s : Nat × Nat × Buf α) => do
    let v ← contract s.1 P s.2.1 Q mat 0 tm (add d) u (uo d) s.2.2 (vo d)
    Res.ok (s.1 / P, s.2.1 * Q, v)) (nc * P ^ (dim - 1), ne, v)
  .ok s.2.2

/-- Size of the temporary arrays, `num_elem * num_comp * Q * CeedIntPow(P > Q ? P : Q, dim - 1)`
(`backends/ref/ceed-ref-basis.c` 68, 98, 99, 156). -/
def tmpSize (b : Bas α) (ne P Q : Nat) : Nat := ne * b.nc * Q * (if P > Q then P else Q) ^ (b.dim - 1)

/-- `memcpy(v, u, n)`. -/
def memcpy (u v : Buf α) (n : Nat) : Res (Buf α) :=
  if n ≤ u.len ∧ n ≤ v.len then .ok ⟨v.len, fun i => if i < n then u.val i else v.val i⟩ else .ub

/-- `backends/ref/ceed-ref-basis.c` 56-81, interpolation with a tensor basis. -/
def tensorInterp (b : Bas α) (junk : Nat → Nat → α) (add : Bool) (ne : Nat) (tm : TMode) (u v : Buf α) :
    Res (Buf α) :=
  if b.colloInterp then memcpy u v (ne * b.nc * b.P)
  else match tm with
    | .noTranspose => chain b.dim b.nc ne b.P1 b.Q1 (tmpSize b ne b.P1 b.Q1) (fun _ => b.interp1) tm add junk u 0 v 0
    | .transpose => chain b.dim b.nc ne b.Q1 b.P1 (tmpSize b ne b.Q1 b.P1) (fun _ => b.interp1) tm add junk u 0 v 0

/-- `backends/ref/ceed-ref-basis.c` 83-172, gradient with a tensor basis: three strategies. -/
def tensorGrad (b : Bas α) (junk : Nat → Nat → α) (applyAdd add : Bool) (ne : Nat) (tm : TMode) (u v : Buf α) :
    Res (Buf α) :=
  let stride := b.nc * b.Q * ne
  match b.colloGrad with
  | some cg =>
    let size := tmpSize b ne (match tm with | .noTranspose => b.P1 | .transpose => b.Q1) b.Q1
    let interp : Buf α := ⟨size, junk 2⟩
    match tm with
    | .noTranspose => do
      let interp ← chain b.dim b.nc ne b.P1 b.Q1 size (fun _ => b.interp1) tm false junk u 0 interp 0
      sweep b.dim b.nc ne b.Q1 b.Q1 cg tm (fun _ => applyAdd) interp (fun _ => 0) v (fun d => d * stride)
    | .transpose => do
      let interp ← sweep b.dim b.nc ne b.Q1 b.Q1 cg tm (fun d => decide (0 < d)) u (fun d => d * stride) interp
        (fun _ => 0)
      chain b.dim b.nc ne b.Q1 b.P1 size (fun _ => b.interp1) tm true junk interp 0 v 0
  | none =>
    if b.colloInterp then
      match tm with
      | .noTranspose => sweep b.dim b.nc ne b.P1 b.Q1 b.grad1 tm (fun d => add && decide (0 < d)) u (fun _ => 0) v
          (fun d => d * stride)
      | .transpose => sweep b.dim b.nc ne b.Q1 b.Q1 b.grad1 tm (fun d => add && decide (0 < d)) u
          (fun d => d * stride) v (fun _ => 0)
    else
      loop b.dim (fun p v =>
        let mat := fun d => if p = d then b.grad1 else b.interp1
        match tm with
        | .noTranspose => chain b.dim b.nc ne b.P1 b.Q1 (tmpSize b ne b.P1 b.Q1) mat tm add junk u 0 v (p * stride)
        | .transpose => chain b.dim b.nc ne b.Q1 b.P1 (tmpSize b ne b.Q1 b.P1) mat tm add junk u (p * stride) v 0) v

/-- `backends/ref/ceed-ref-basis.c` 174-194, weights of a tensor basis. -/
def tensorWeight (b : Bas α) (ne : Nat) (v : Buf α) : Res (Buf α) :=
  let Q := b.Q1
  loop b.dim (fun d v =>
    let pre := Q ^ (b.dim - d - 1)
    let post := Q ^ d
    loop pre (fun i v => loop Q (fun j v => loop post (fun k v => do
      let x ← b.qWeight.rd j
      let y ← if d = 0 then Res.ok 1 else v.rd (((i * Q + j) * post + k) * ne)
      let w := x * y
      loop ne (fun e v => v.wr (((i * Q + j) * post + k) * ne + e) w) v) v) v) v) v

/-- `backends/ref/ceed-ref-basis.c` 19-251 `CeedBasisApplyCore_Ref`. `u = none` is `CEED_VECTOR_NONE`. -/
def applyCore (b : Bas α) (junk : Nat → Nat → α) (applyAdd : Bool) (ne : Nat) (tm : TMode) (em : EMode)
    (u : Option (Buf α)) (v : Buf α) : Res (Buf α) := do
  let add := applyAdd || decide (tm = .transpose)
  Res.check (u.isSome ∨ em = .weight) .backend
  let u := u.getD ⟨0, fun _ => 0⟩
  let v ← if tm = .transpose ∧ applyAdd = false then Buf.fill v.len 0 v else Res.ok v
  if b.isTensor then
    match em with
    | .interp => tensorInterp b junk add ne tm u v
    | .grad => tensorGrad b junk applyAdd add ne tm u v
    | .weight => do
      Res.check (tm = .noTranspose) .backend
      tensorWeight b ne v
    | _ => .err .backend
  else
    let qc := b.qComp em
    match em with
    | .interp => do
      let m ← getInterp b
      let m ← deref m
      contractStrided b.nc b.P ne qc b.Q m tm add u v
    | .grad => do
      let m ← getGrad b
      let m ← deref m
      contractStrided b.nc b.P ne qc b.Q m tm add u v
    | .div => do
      let m ← deref b.div
      contractStrided b.nc b.P ne qc b.Q m tm add u v
    | .curl => do
      let m ← deref b.curl
      contractStrided b.nc b.P ne qc b.Q m tm add u v
    | .weight => do
      Res.check (tm = .noTranspose) .backend
      loop b.Q (fun i v => loop ne (fun e v => do
        let w ← b.qWeight.rd i
        v.wr (i * ne + e) w) v) v
    | .none => .err .backend

/-- `interface/ceed-basis.c` 315-346 `CeedBasisApplyCheckDims`. The length of `CEED_VECTOR_NONE` is 0. -/
def checkDims (b : Bas α) (ne : Nat) (tm : TMode) (em : EMode) (u : Option (Buf α)) (v : Buf α) : Res Unit :=
  let ul := match u with | some u => u.len | none => 0
  let good := match em with
    | .weight => decide (ne * b.Q ≤ v.len)
    | _ => match tm with
      | .transpose => decide (ne * b.nc * b.Q * b.qComp em ≤ ul) && decide (ne * b.nc * b.P ≤ v.len)
      | .noTranspose => decide (ne * b.Q * b.nc * b.qComp em ≤ v.len) && decide (ne * b.nc * b.P ≤ ul)
  Res.check (good = true) .dimension

/-- `interface/ceed-basis.c` 1944-1949 `CeedBasisApply` with the reference backend (`CeedBasisApply_Ref`, 253-256). -/
def apply (b : Bas α) (junk : Nat → Nat → α) (ne : Nat) (tm : TMode) (em : EMode) (u : Option (Buf α)) (v : Buf α) :
    Res (Buf α) := do
  checkDims b ne tm em u v
  applyCore b junk false ne tm em u v

/-- `interface/ceed-basis.c` 1972-1978 `CeedBasisApplyAdd` with the reference backend (`CeedBasisApplyAdd_Ref`,
258-261). -/
def applyAdd (b : Bas α) (junk : Nat → Nat → α) (ne : Nat) (tm : TMode) (em : EMode) (u : Option (Buf α)) (v : Buf α) :
    Res (Buf α) := do
  Res.check (tm = .transpose) .unsupported
  checkDims b ne tm em u v
  applyCore b junk true ne tm em u v

/-! ## Creation -/

/-- `backends/ref/ceed-ref-basis.c` 289-299: are the quadrature points collocated with the nodes? `near a` is the test
`fabs(a) < 1e-14`. -/
def colloTest (near : α → Bool) (P1 Q1 : Nat) (interp1 : Buf α) : Res Bool :=
  if Q1 = P1 then
    loop P1 (fun i c => do
      let x ← interp1.rd (i + P1 * i)
      let c := c && near (x - 1)
      loop P1 (fun j c =>
        if j ≠ i then do
          let x ← interp1.rd (j + P1 * i)
          Res.ok (c && near x)
        else Res.ok c) c) true
  else .ok false

/-- `backends/ref/ceed-ref-basis.c` 300-305: the collocated gradient is made when `Q_1d >= P_1d` and the points are not
collocated. `collo` is the computation of the collocated gradient (`CeedBasisGetCollocatedGrad`,
`interface/ceed-basis.c` 703-724). -/
def colloOpt (collo : Nat → Nat → Buf α → Buf α → Res (Buf α)) (P1 Q1 : Nat) (i1 g1 : Buf α) (ci : Bool) :
    Res (Option (Buf α)) :=
  if P1 ≤ Q1 ∧ ci = false then do
    let m ← collo P1 Q1 i1 g1
    Res.ok (some m)
  else Res.ok none

/-- `interface/ceed-basis.c` 1456-1497 `CeedBasisCreateTensorH1` with `backends/ref/ceed-ref-basis.c` 277-318
`CeedBasisCreateTensorH1_Ref`, all arrays given (`q_ref_1d` is copied but not used here). -/
def createTensorH1 (near : α → Bool) (collo : Nat → Nat → Buf α → Buf α → Res (Buf α)) (dim nc P1 Q1 : Int)
    (interp1 grad1 qWeight : Buf α) : Res (Bas α) := do
  Res.check (0 < dim) .dimension
  Res.check (0 < nc) .dimension
  Res.check (0 < P1) .dimension
  Res.check (0 < Q1) .dimension
  let (dim, nc, P1, Q1) := (dim.toNat, nc.toNat, P1.toNat, Q1.toNat)
  let w ← Restriction.copyIn qWeight Q1
  let i1 ← Restriction.copyIn interp1 (Q1 * P1)
  let g1 ← Restriction.copyIn grad1 (Q1 * P1)
  let ci ← colloTest near P1 Q1 i1
  let cg ← colloOpt collo P1 Q1 i1 g1 ci
  .ok { isTensor := true, isH1 := true, dim := dim, nc := nc, P1 := P1, Q1 := Q1, P := P1 ^ dim, Q := Q1 ^ dim,
        interp1 := i1, grad1 := g1, qWeight := w, interp := none, grad := none, div := none, curl := none,
        colloInterp := ci, colloGrad := cg }

/-- Function space of a non-tensor basis. -/
inductive Space
  | h1 | hdiv | hcurl
deriving DecidableEq, Repr

/-- `interface/ceed-basis.c` 1594-1639 `CeedBasisCreateH1`, 1654-1699 `CeedBasisCreateHdiv`, 1714-1760
`CeedBasisCreateHcurl` (the reference creation functions only set the contraction). `dim` is the dimension of the
topology (`CeedBasisGetTopologyDimension`); `deriv` is the matrix of gradients, divergences or curls. -/
def createNonTensor (sp : Space) (dim : Nat) (nc P Q : Int) (interp deriv qWeight : Buf α) : Res (Bas α) := do
  Res.check (0 < nc) .dimension
  Res.check (0 < P) .dimension
  Res.check (0 < Q) .dimension
  let (nc, P, Q) := (nc.toNat, P.toNat, Q.toNat)
  let w ← Restriction.copyIn qWeight Q
  let i ← Restriction.copyIn interp ((if sp = .h1 then 1 else dim) * Q * P)
  let d ← Restriction.copyIn deriv
    ((match sp with | .h1 => dim | .hdiv => 1 | .hcurl => if dim < 3 then 1 else dim) * Q * P)
  .ok { isTensor := false, isH1 := decide (sp = .h1), dim := dim, nc := nc, P1 := 0, Q1 := 0, P := P, Q := Q,
        interp1 := ⟨0, fun _ => 0⟩, grad1 := ⟨0, fun _ => 0⟩, qWeight := w, interp := some i,
        grad := if sp = .h1 then some d else none, div := if sp = .hdiv then some d else none,
        curl := if sp = .hcurl then some d else none, colloInterp := false, colloGrad := none }

end Basis
end Verif
