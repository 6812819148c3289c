import Verif.Basis.Model
import Mathlib.Algebra.BigOperators.Group.Finset.Basic
import Mathlib.Algebra.BigOperators.Ring.Finset

/-!
# Counting floating point operations

Estimates of `CeedBasisGetFlopsEstimate` and `CeedElemRestrictionGetFlopsEstimate`, and the loops of the reference backend
with a counter that goes up by one for every multiplication and addition of scalars. Assignments, copies and operations on
indices are not counted.
-/

namespace Verif
namespace Flops

open Restriction (TMode RType Rstr)
open Basis (Bas EMode)
open Finset (range sum_congr)

/-! ## Estimates -/

section
variable {α : Type _}

/-- `interface/ceed-basis.c` 895-903: the loop for `tensor_flops`. State `(tensor_flops, pre, post)`. Division is the one of
C on numbers that are not negative; `P` is positive for every basis. -/
def tensorFlops (dim nc P Q : Nat) : Nat :=
  let rec go : Nat → Nat × Nat × Nat → Nat × Nat × Nat
    | 0, s => s
    | n + 1, s =>
      let t := go n s
      (t.1 + 2 * t.2.1 * P * t.2.2 * Q, t.2.1 / P, t.2.2 * Q)
  (go dim (0, nc * P ^ (dim - 1), 1)).1

/-- Lines 906-912: the loop for `point_tensor_flops`, which divides by `P_1d`. -/
def pointTensorFlops (dim P Q : Nat) : Nat :=
  let rec go : Nat → Nat × Nat × Nat → Nat × Nat × Nat
    | 0, s => s
    | n + 1, s =>
      let t := go n s
      (t.1 + 2 * t.2.1 * Q * t.2.2 * 1, t.2.1 / P, t.2.2 * Q)
  (go dim (0, Q ^ (dim - 1), 1)).1

/-- `interface/ceed-basis.c` 881-986 `CeedBasisGetFlopsEstimate`. The assignments of line 893, `P_1d = Q_1d; Q_1d = P_1d`,
leave both equal to `Q_1d`. `CEED_BASIS_NONE` is a basis of size zero that is not a tensor basis. -/
def basisFlops [CommRing α] (b : Bas α) (tm : TMode) (em : EMode) (atPoints : Bool) (numPoints : Nat) : Res Int := do
  Res.check (atPoints = false ∨ b.isTensor = true) .incompatible
  if b.isTensor then
    let P := match tm with | .noTranspose => b.P1 | .transpose => b.Q1
    let Q := match tm with | .noTranspose => b.Q1 | .transpose => P
    let tf : Int := tensorFlops b.dim b.nc P Q
    if atPoints then
      let cf : Int := ((Q : Int) - 2) * 3 + 1
      let df : Int := ((Q : Int) - 2) * 8 + 1
      let pf : Int := pointTensorFlops b.dim P Q
      let ex : Int := match tm with | .noTranspose => 0 | .transpose => (Q : Int) ^ b.dim
      match em with
      | .none => .ok 0
      | .interp => .ok (tf + numPoints * (b.dim * cf + pf + ex))
      | .grad => .ok (tf + numPoints * (b.dim * (df + ((b.dim : Int) - 1) * cf + pf + ex)))
      | .div => .err .incompatible
      | .curl => .err .incompatible
      | .weight => .ok numPoints
    else
      match em with
      | .none => .ok 0
      | .interp => .ok tf
      | .grad => .ok (tf * 2)
      | .div => .err .incompatible
      | .curl => .err .incompatible
      | .weight => .ok (b.dim * (Q : Int) ^ b.dim)
  else
    match em with
    | .none => .ok 0
    | .interp => .ok (b.P * b.Q * b.nc * b.qComp em)
    | .grad => .ok (b.P * b.Q * b.nc * b.qComp em)
    | .div => .ok (b.P * b.Q * b.nc * b.qComp em)
    | .curl => .ok (b.P * b.Q * b.nc * b.qComp em)
    | .weight => .ok 0

/-- `interface/ceed-elemrestriction.c` 547-586 `CeedElemRestrictionGetFlopsEstimate`. -/
def rstrFlops (r : Rstr) (tm : TMode) : Int :=
  let scale : Int := match tm with
    | .transpose => match r.rtype with
      | .points => 0
      | .strided => 1
      | .standard => 1
      | .oriented => 2
      | .curlOriented => 6
    | .noTranspose => match r.rtype with
      | .strided => 0
      | .standard => 0
      | .points => 0
      | .oriented => 1
      | .curlOriented => 5
  r.eSize * scale

/-! ## The reference backend with a counter -/

variable [CommRing α]

/-- `backends/ref/ceed-ref-tensor.c` 16-38 (`Basis.contract`), counting: a multiplication and an addition in line 34. -/
def contractC (A B C J : Nat) (t : Buf α) (tof : Nat) (tm : TMode) (add : Bool) (u : Buf α) (uo : Nat) (v : Buf α)
    (vo : Nat) : Res (Buf α × Nat) := do
  let s := Basis.tStride tm B J
  let v ← if add then Res.ok v else loop (A * J * C) (fun q v => v.wr (vo + q) 0) v
  loop A (fun a v => loop B (fun b v => loop J (fun j v => do
    let tq ← t.rd (tof + (j * s.1 + b * s.2))
    loop C (fun c (w : Buf α × Nat) => do
      let x ← u.rd (uo + ((a * B + b) * C + c))
      let v ← w.1.addAt (vo + ((a * J + j) * C + c)) (tq * x)
      Res.ok (v, w.2 + 2)) v) v) v) (v, 0)

/-- `interface/ceed-tensor.c` 99-112 (`Basis.contractStrided`), counting. -/
def contractStridedC (A B C D J : Nat) (t : Buf α) (tm : TMode) (add : Bool) (u v : Buf α) : Res (Buf α × Nat) :=
  match tm with
  | .transpose => loop D (fun d (w : Buf α × Nat) => do
      let r ← contractC A J C B t (d * B * J) tm add u (d * A * J * C) w.1 0
      Res.ok (r.1, w.2 + r.2)) (v, 0)
  | .noTranspose => loop D (fun d (w : Buf α × Nat) => do
      let r ← contractC A B C J t (d * B * J) tm add u 0 w.1 (d * A * J * C)
      Res.ok (r.1, w.2 + r.2)) (v, 0)

/-- The loops over directions of `backends/ref/ceed-ref-basis.c` through temporary arrays (`Basis.chain`), counting. -/
def chainC (dim nc ne P Q size : Nat) (mat : Nat → Buf α) (tm : TMode) (addLast : Bool) (junk : Nat → Nat → α)
    (u : Buf α) (uo : Nat) (v : Buf α) (vo : Nat) : Res (Buf α × Nat) := do
  let s ← loop dim (fun d (w : Basis.ChainSt α × Nat) => do
    let (src, so) := if d = 0 then (u, uo) else if d % 2 = 0 then (w.1.tmp0, 0) else (w.1.tmp1, 0)
    let s ←
      if d = dim - 1 then do
        let o ← contractC w.1.pre P w.1.post Q (mat d) 0 tm addLast src so w.1.out vo
        Res.ok ({ w.1 with out := o.1 }, w.2 + o.2)
      else if (d + 1) % 2 = 0 then do
        let o ← contractC w.1.pre P w.1.post Q (mat d) 0 tm false src so w.1.tmp0 0
        Res.ok ({ w.1 with tmp0 := o.1 }, w.2 + o.2)
      else do
        let o ← contractC w.1.pre P w.1.post Q (mat d) 0 tm false src so w.1.tmp1 0
        Res.ok ({ w.1 with tmp1 := o.1 }, w.2 + o.2)
    Res.ok ({ s.1 with pre := s.1.pre / P, post := s.1.post * Q }, s.2))
    ({ pre := nc * P ^ (dim - 1), post := ne, tmp0 := ⟨size, junk 0⟩, tmp1 := ⟨size, junk 1⟩, out := v }, 0)
  .ok (s.1.out, s.2)

/-- The loops over directions without temporary arrays (`Basis.sweep`), counting. -/
def sweepC (dim nc ne P Q : Nat) (mat : Buf α) (tm : TMode) (add : Nat → Bool) (u : Buf α) (uo : Nat → Nat) (v : Buf α)
    (vo : Nat → Nat) : Res (Buf α × Nat) := do
  let s ← loop dim (fun d (w : (Nat × Nat × Buf α) × Nat) => do
    let v ← contractC w.1.1 P w.1.2.1 Q mat 0 tm (add d) u (uo d) w.1.2.2 (vo d)
    Res.ok ((w.1.1 / P, w.1.2.1 * Q, v.1), w.2 + v.2)) ((nc * P ^ (dim - 1), ne, v), 0)
  .ok (s.1.2.2, s.2)

/-- `backends/ref/ceed-ref-basis.c` 56-81 (`Basis.tensorInterp`), counting. -/
def tensorInterpC (b : Bas α) (junk : Nat → Nat → α) (add : Bool) (ne : Nat) (tm : TMode) (u v : Buf α) :
    Res (Buf α × Nat) :=
  if b.colloInterp then do
    let v ← Basis.memcpy u v (ne * b.nc * b.P)
    Res.ok (v, 0)
  else match tm with
    | .noTranspose =>
      chainC b.dim b.nc ne b.P1 b.Q1 (Basis.tmpSize b ne b.P1 b.Q1) (fun _ => b.interp1) tm add junk u 0 v 0
    | .transpose =>
      chainC b.dim b.nc ne b.Q1 b.P1 (Basis.tmpSize b ne b.Q1 b.P1) (fun _ => b.interp1) tm add junk u 0 v 0

/-- `backends/ref/ceed-ref-basis.c` 83-172 (`Basis.tensorGrad`), counting. -/
def tensorGradC (b : Bas α) (junk : Nat → Nat → α) (applyAdd add : Bool) (ne : Nat) (tm : TMode) (u v : Buf α) :
    Res (Buf α × Nat) :=
  let stride := b.nc * b.Q * ne
  match b.colloGrad with
  | some cg =>
    let size := Basis.tmpSize b ne (match tm with | .noTranspose => b.P1 | .transpose => b.Q1) b.Q1
    let interp : Buf α := ⟨size, junk 2⟩
    match tm with
    | .noTranspose => do
      let i ← chainC b.dim b.nc ne b.P1 b.Q1 size (fun _ => b.interp1) tm false junk u 0 interp 0
      let r ← sweepC b.dim b.nc ne b.Q1 b.Q1 cg tm (fun _ => applyAdd) i.1 (fun _ => 0) v (fun d => d * stride)
      Res.ok (r.1, i.2 + r.2)
    | .transpose => do
      let i ← sweepC b.dim b.nc ne b.Q1 b.Q1 cg tm (fun d => decide (0 < d)) u (fun d => d * stride) interp
        (fun _ => 0)
      let r ← chainC b.dim b.nc ne b.Q1 b.P1 size (fun _ => b.interp1) tm true junk i.1 0 v 0
      Res.ok (r.1, i.2 + r.2)
  | none =>
    if b.colloInterp then
      match tm with
      | .noTranspose => sweepC b.dim b.nc ne b.P1 b.Q1 b.grad1 tm (fun d => add && decide (0 < d)) u (fun _ => 0) v
          (fun d => d * stride)
      | .transpose => sweepC b.dim b.nc ne b.Q1 b.Q1 b.grad1 tm (fun d => add && decide (0 < d)) u
          (fun d => d * stride) v (fun _ => 0)
    else
      loop b.dim (fun p (w : Buf α × Nat) =>
        let mat := fun d => if p = d then b.grad1 else b.interp1
        match tm with
        | .noTranspose => do
          let r ← chainC b.dim b.nc ne b.P1 b.Q1 (Basis.tmpSize b ne b.P1 b.Q1) mat tm add junk u 0 w.1 (p * stride)
          Res.ok (r.1, w.2 + r.2)
        | .transpose => do
          let r ← chainC b.dim b.nc ne b.Q1 b.P1 (Basis.tmpSize b ne b.Q1 b.P1) mat tm add junk u (p * stride) w.1 0
          Res.ok (r.1, w.2 + r.2)) (v, 0)

/-- `backends/ref/ceed-ref-basis.c` 174-194 (`Basis.tensorWeight`), counting: one multiplication in line 188. -/
def tensorWeightC (b : Bas α) (ne : Nat) (v : Buf α) : Res (Buf α × Nat) :=
  let Q := b.Q1
  loop b.dim (fun d v =>
    let pre := Q ^ (b.dim - d - 1)
    let post := Q ^ d
    loop pre (fun i v => loop Q (fun j v => loop post (fun k (w : Buf α × Nat) => do
      let x ← b.qWeight.rd j
      let y ← if d = 0 then Res.ok 1 else w.1.rd (((i * Q + j) * post + k) * ne)
      let z := x * y
      let v ← loop ne (fun e v => v.wr (((i * Q + j) * post + k) * ne + e) z) w.1
      Res.ok (v, w.2 + 1)) v) v) v) (v, 0)

/-- `backends/ref/ceed-ref-basis.c` 19-251 (`Basis.applyCore`), counting. Building the matrix of a tensor basis does not
happen here: `CeedBasisGetInterp` and `CeedBasisGetGrad` return the matrices of a basis that is not a tensor basis. -/
def applyCoreC (b : Bas α) (junk : Nat → Nat → α) (applyAdd : Bool) (ne : Nat) (tm : TMode) (em : EMode)
    (u : Option (Buf α)) (v : Buf α) : Res (Buf α × Nat) := do
  let add := applyAdd || decide (tm = .transpose)
  Res.check (u.isSome ∨ em = .weight) .backend
  let u := u.getD ⟨0, fun _ => 0⟩
  let v ← if tm = .transpose ∧ applyAdd = false then Buf.fill v.len 0 v else Res.ok v
  if b.isTensor then
    match em with
    | .interp => tensorInterpC b junk add ne tm u v
    | .grad => tensorGradC b junk applyAdd add ne tm u v
    | .weight => do
      Res.check (tm = .noTranspose) .backend
      tensorWeightC b ne v
    | _ => .err .backend
  else
    let qc := b.qComp em
    match em with
    | .interp => do
      let m ← Basis.getInterp b
      let m ← Basis.deref m
      contractStridedC b.nc b.P ne qc b.Q m tm add u v
    | .grad => do
      let m ← Basis.getGrad b
      let m ← Basis.deref m
      contractStridedC b.nc b.P ne qc b.Q m tm add u v
    | .div => do
      let m ← Basis.deref b.div
      contractStridedC b.nc b.P ne qc b.Q m tm add u v
    | .curl => do
      let m ← Basis.deref b.curl
      contractStridedC b.nc b.P ne qc b.Q m tm add u v
    | .weight => do
      Res.check (tm = .noTranspose) .backend
      let v ← loop b.Q (fun i v => loop ne (fun e v => do
        let w ← b.qWeight.rd i
        v.wr (i * ne + e) w) v) v
      Res.ok (v, 0)
    | .none => .err .backend

/-! ## Restrictions -/

/-- `ceed-ref-restriction.c` 77-94 (`Restriction.orientedNT`), counting: one multiplication. -/
def orientedNTC (nc bs es : Nat) (cs : Int) (start stop voff : Nat) (offs : Buf Int) (ors : Buf Bool)
    (uu vv : Buf α) : Res (Buf α × Nat) :=
  loop (stop - start) (fun b vv =>
    let e := (start + b) * bs
    loop nc (fun k vv => loop (es * bs) (fun i (w : Buf α × Nat) => do
      let o ← offs.rd (i + e * es)
      let x ← uu.rdI (o + k * cs)
      let s ← ors.rd (i + e * es)
      let v ← w.1.wrS (es * (k * bs + e * nc) + i) voff (x * (if s then -1 else 1))
      Res.ok (v, w.2 + 1)) vv) vv) (vv, 0)

/-- `ceed-ref-restriction.c` 96-136 (`Restriction.curlNT`), counting: two products and a sum at the ends, three products
and two sums in between. -/
def curlNTC (nc bs es : Nat) (cs : Int) (start stop voff : Nat) (offs cur : Buf Int) (conv : Int → α)
    (uu vv : Buf α) : Res (Buf α × Nat) :=
  loop (stop - start) (fun b vv =>
    let e := (start + b) * bs
    let t := Restriction.curlTermNT bs es cs offs cur conv uu e
    loop nc (fun k vv => do
      let vv ← loop bs (fun j (w : Buf α × Nat) => do
        let x ← t k j 0 0 1
        let y ← t k j 1 0 2
        let v ← w.1.wrS (e * es * nc + (k * es + 0) * bs + j) voff (x + y)
        Res.ok (v, w.2 + 3)) vv
      let vv ← loop (es - 2) (fun n' vv =>
        let n := n' + 1
        loop bs (fun j (w : Buf α × Nat) => do
          let x ← t k j (n - 1) n 0
          let y ← t k j n n 1
          let z ← t k j (n + 1) n 2
          let v ← w.1.wrS (e * es * nc + (k * es + n) * bs + j) voff (x + y + z)
          Res.ok (v, w.2 + 5)) vv) vv
      let n := Restriction.lastN es
      loop bs (fun j (w : Buf α × Nat) => do
        let x ← t k j (n - 1) n 0
        let y ← t k j n n 1
        let v ← w.1.wrS (e * es * nc + (k * es + n) * bs + j) voff (x + y)
        Res.ok (v, w.2 + 3)) vv) vv) (vv, 0)

/-- `ceed-ref-restriction.c` 181-218 (`Restriction.stridedT`), counting: one addition. -/
def stridedTC (nc bs es : Nat) (ne : Int) (start stop voff : Nat) (idx : Int → Int → Int → Int)
    (uu vv : Buf α) : Res (Buf α × Nat) :=
  loop (stop - start) (fun b vv =>
    let e := (start + b) * bs
    loop nc (fun k vv => loop es (fun n vv => loop (Restriction.laneEnd bs ne e) (fun j (w : Buf α × Nat) => do
      let x ← uu.rdS (e * es * nc + (k * es + n) * bs + j) voff
      let v ← w.1.addAtI (idx n k ((e + j : Nat) : Int)) x
      Res.ok (v, w.2 + 1)) vv) vv) vv) (vv, 0)

/-- `ceed-ref-restriction.c` 220-242 (`Restriction.offsetT`), counting: one addition. -/
def offsetTC (nc bs es : Nat) (ne : Int) (cs : Int) (start stop voff : Nat) (offs : Buf Int)
    (uu vv : Buf α) : Res (Buf α × Nat) :=
  loop (stop - start) (fun b vv =>
    let e := (start + b) * bs
    loop nc (fun k vv => loop es (fun n vv => loop (Restriction.laneEnd bs ne e) (fun j' (w : Buf α × Nat) => do
      let j := n * bs + j'
      let x ← uu.rdS (es * (k * bs + e * nc) + j) voff
      let o ← offs.rd (j + e * es)
      let v ← w.1.addAtI (o + k * cs) x
      Res.ok (v, w.2 + 1)) vv) vv) vv) (vv, 0)

/-- `ceed-ref-restriction.c` 244-266 (`Restriction.orientedT`), counting: a multiplication and an addition. -/
def orientedTC (nc bs es : Nat) (ne : Int) (cs : Int) (start stop voff : Nat) (offs : Buf Int) (ors : Buf Bool)
    (uu vv : Buf α) : Res (Buf α × Nat) :=
  loop (stop - start) (fun b vv =>
    let e := (start + b) * bs
    loop nc (fun k vv => loop es (fun n vv => loop (Restriction.laneEnd bs ne e) (fun j' (w : Buf α × Nat) => do
      let j := n * bs + j'
      let x ← uu.rdS (es * (k * bs + e * nc) + j) voff
      let s ← ors.rd (j + e * es)
      let o ← offs.rd (j + e * es)
      let v ← w.1.addAtI (o + k * cs) (x * (if s then -1 else 1))
      Res.ok (v, w.2 + 2)) vv) vv) vv) (vv, 0)

/-- `ceed-ref-restriction.c` 268-317 (`Restriction.curlT`), counting: as without transpose, and the addition to the
L-vector. -/
def curlTC (nc bs es : Nat) (ne : Int) (cs : Int) (start stop voff : Nat) (offs cur : Buf Int) (conv : Int → α)
    (uu vv : Buf α) : Res (Buf α × Nat) :=
  loop (stop - start) (fun b vv =>
    let e := (start + b) * bs
    let t := Restriction.curlTermT nc bs es voff cur conv uu e
    let be := Restriction.laneEnd bs ne e
    loop nc (fun k vv => do
      let vv ← loop be (fun j (w : Buf α × Nat) => do
        let x ← t k j 0 1
        let y ← t k j 1 3
        let o ← offs.rd (j + 0 * bs + e * es)
        let v ← w.1.addAtI (o + k * cs) (x + y)
        Res.ok (v, w.2 + 4)) vv
      let vv ← loop (es - 2) (fun n' vv =>
        let n := n' + 1
        loop be (fun j (w : Buf α × Nat) => do
          let x ← t k j (n - 1) (3 * n - 1)
          let y ← t k j n (3 * n + 1)
          let z ← t k j (n + 1) (3 * n + 3)
          let o ← offs.rd (j + n * bs + e * es)
          let v ← w.1.addAtI (o + k * cs) (x + y + z)
          Res.ok (v, w.2 + 6)) vv) vv
      let n := Restriction.lastN es
      loop be (fun j (w : Buf α × Nat) => do
        let x ← t k j (n - 1) (3 * n - 1)
        let y ← t k j n (3 * n + 1)
        let o ← offs.rd (j + n * bs + e * es)
        let v ← w.1.addAtI (o + k * cs) (x + y)
        Res.ok (v, w.2 + 4)) vv) vv) (vv, 0)

/-- `ceed-ref-restriction.c` 370-393 (`Restriction.pointsKernel`), counting: one addition with transpose. -/
def pointsC (r : Rstr) (nc start stop : Nat) (tm : TMode) (uu vv : Buf α) : Res (Buf α × Nat) := do
  let s ← loop (stop - start) (fun b (s : (Buf α × Int) × Nat) => do
    let e : Int := ((start + b : Nat) : Int)
    let lOff ← r.offsets.rdI e
    let np ← Restriction.numPointsInElement r e
    let vv ← (match tm with
      | .noTranspose => do
        let v ← loop np.toNat (fun i vv => loop nc (fun j vv => do
          let o ← r.offsets.rdI ((i : Int) + lOff)
          let x ← uu.rdI (o * nc + j)
          vv.wrI (j * np + i + s.1.2) x) vv) s.1.1
        Res.ok (v, s.2)
      | .transpose => loop np.toNat (fun i vv => loop nc (fun j (w : Buf α × Nat) => do
          let o ← r.offsets.rdI ((i : Int) + lOff)
          let x ← uu.rdI (j * np + i + s.1.2)
          let v ← w.1.addAtI (o * nc + j) x
          Res.ok (v, w.2 + 1)) vv) (s.1.1, s.2))
    Res.ok ((vv.1, s.1.2 + np * nc), vv.2)) ((vv, 0), 0)
  .ok (s.1.1, s.2)

/-- `ceed-ref-restriction.c` 395-502 (`Restriction.applyCore`) with signs and orientations, counting. -/
def rstrApplyC (r : Rstr) (nc bs : Nat) (cs : Int) (start stop : Nat) (tm : TMode) (uu vv : Buf α) : Res (Buf α × Nat) :=
  let es := r.elemSize
  let ne := r.numElem
  let voff := start * bs * es * nc
  match tm with
  | .transpose =>
    match r.rtype with
    | .strided => do
      let idx ← Restriction.stridedIdx r es nc
      stridedTC nc bs es ne start stop voff idx uu vv
    | .standard => offsetTC nc bs es ne cs start stop voff r.offsets uu vv
    | .oriented => orientedTC nc bs es ne cs start stop voff r.offsets r.orients uu vv
    | .curlOriented => curlTC nc bs es ne cs start stop voff r.offsets r.curlOrients (fun c => (c : α)) uu vv
    | .points => pointsC r nc start stop tm uu vv
  | .noTranspose =>
    match r.rtype with
    | .strided => do
      let idx ← Restriction.stridedIdx r es nc
      let v ← Restriction.stridedNT nc bs es ne start stop voff idx uu vv
      Res.ok (v, 0)
    | .standard => do
      let v ← Restriction.offsetNT nc bs es cs start stop voff r.offsets uu vv
      Res.ok (v, 0)
    | .oriented => orientedNTC nc bs es cs start stop voff r.offsets r.orients uu vv
    | .curlOriented => curlNTC nc bs es cs start stop voff r.offsets r.curlOrients (fun c => (c : α)) uu vv
    | .points => pointsC r nc start stop tm uu vv

/-- `interface/ceed-elemrestriction.c` 1296-1318 `CeedElemRestrictionApply` (`Restriction.apply`), counting. -/
def rstrRunC (r : Rstr) (tm : TMode) (u ru : Buf α) : Res (Buf α × Nat) := do
  let (minU, minRu) : Int × Int := match tm with
    | .noTranspose => (r.lSize, (r.eSize : Int))
    | .transpose => ((r.eSize : Int), r.lSize)
  Res.check (minU ≤ u.len) .dimension
  Res.check (minRu ≤ ru.len) .dimension
  if 0 < r.numElem then rstrApplyC r r.numComp r.blockSize r.compStride 0 r.numBlock tm u ru
  else .ok (ru, 0)

end

end Flops
end Verif
