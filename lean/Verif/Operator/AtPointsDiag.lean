import Verif.Operator.AtPoints

/-!
# Diagonals of operators at points, reference backend

Models `backends/ref/ceed-ref-operator.c` 1320-1553 `CeedOperatorLinearAssembleAddDiagonalAtPoints_Ref` and the functions of
`interface/ceed-preconditioning.c` that call it. The diagonal is found by applying the operator on every element to unit
vectors. The state is that of `Verif/Operator/AtPoints.lean`. The vector `out_vec` made in line 1358 is vector number `tmp`,
which has the length of the active output before the call already; `in_vec` is never read or written.
-/

namespace Verif
namespace Operator

open Restriction (Rstr TMode)
open Basis (Bas EMode PBas Env)

variable {K : Type} [Field K]

/-- Lines 1367-1376, and line 1531: `CeedVectorSetValue(q_vecs_in[i], 0.0)`. -/
def clearQ (P : POper K) (i : Nat) : M (PSt K) Unit := do
  let s ← getP
  putQBuf P i ⟨(qBuf P s.d i).len, fun _ => 0⟩

/-- Lines 1363-1376: one input. -/
def clearActive (P : POper K) (i : Nat) : M (PSt K) Unit :=
  if (P.op.inp i).vec = .active then clearQ P i else pure ()

/-- Lines 1425-1434: the unit vector. -/
def unitEl (P : POper K) (i s : Nat) : M (PSt K) Unit := do
  let st ← getP
  let k ← pptr (st.base.impl.it.full i)
  let b : Buf K := if s = 0 then ⟨(st.d.eb k).len, fun _ => 0⟩ else st.d.eb k
  let b ← M.lift (b.wr s 1)
  let b ← M.lift (if 0 < s then b.wr (s - 1) 0 else .ok b)
  putE k b

variable [LinearOrder K]

/-- Lines 1498-1508: basis action of output `j`, always overwriting. For the identity QFunction `q_vecs_out[0]` and
`e_vecs_out[0]` are `q_vecs_in[0]`. -/
def grabBasis (P : POper K) (en : Env K) (np : Nat) (y : Nat → Nat → K) (j : Nat) : M (PSt K) Unit :=
  if (P.op.out j).mode = .none then pure ()
  else if isBasisMode (P.op.out j).mode then do
    let s ← getP
    let k ← pptr (s.base.impl.ot.full j)
    if P.op.isId = true ∧ j = 0 then do
      let v ← onBas (P.outB j) (Basis.applyAtPoints en 1 ⟨1, fun _ => np⟩ .transpose (P.op.out j).mode (some s.d.xe)
        (some (qBuf P s.d 0)) (qBuf P s.d 0))
      putQBuf P 0 v
    else do
      let u : Buf K := ⟨s.d.mx * (P.op.out j).size, y j⟩
      let v ← onBas (P.outB j) (Basis.applyAtPoints en 1 ⟨1, fun _ => np⟩ .transpose (P.op.out j).mode (some s.d.xe) (some u) (s.d.w k))
      putW k v
  else M.fail .backend

/-- Lines 1515-1525: entry `s` of `e_vecs_out[j]` is kept, the others become zero; the result is returned. -/
def grabKeep (P : POper K) (s j : Nat) : M (PSt K) (Buf K) := do
  let st ← getP
  let k ← pptr (st.base.impl.ot.full j)
  let b : Buf K := if P.op.isId = true ∧ j = 0 then qBuf P st.d 0 else st.d.w k
  let x ← M.lift (b.rd s)
  let b' : Buf K := ⟨b.len, fun t => if t = s then x else 0⟩
  if P.op.isId = true ∧ j = 0 then putQBuf P 0 b' else putW k b'
  pure b'

/-- Lines 1480-1485: number of nodes or points of element `e` in a restriction. -/
def nodesEl (r : Rstr) (e : Nat) : Res Nat := do
  if r.rtype = .points then do
    let n ← Restriction.numPointsInElement r e
    .ok n.toNat
  else .ok r.elemSize

/-- Lines 1456-1530, one output: `pts` tells whether the input is at points, `n` is its number of values on the element, `s`
the number of the unit vector. `CEED_ELEMRESTRICTION_NONE` has no components (it is skipped, as `0 < n`). -/
def grabEl (P : POper K) (en : Env K) (av e np : Nat) (y : Nat → Nat → K) (pts : Bool) (n s j : Nat) : M (PSt K) Unit :=
  if (P.op.out j).vec = .active then
    match (P.op.out j).rid with
    | none => pure ()
    | some r =>
      if pts = true ∧ (P.op.rstrs r).rtype ≠ .points then pure () else do
        let m ← M.lift (nodesEl (P.op.rstrs r) e)
        if n ≠ (P.op.rstrs r).numComp * m then pure () else do
          grabBasis P en np y j
          let b ← grabKeep P s j
          onP (scatterEl (P.op.rstrs r) e b (.vec av))
  else pure ()

/-- Lines 1437-1458: basis action of input `i`. -/
def probeBasis (P : POper K) (en : Env K) (np i : Nat) : M (PSt K) Unit :=
  if isBasisMode (P.op.inp i).mode then activeBasisEl P en np i else pure ()

/-- Lines 1418-1532: unit vector `s` of the `n` of input `i`. -/
def probeEl (P : POper K) (en : Env K) (av tmp e np i : Nat) (pts : Bool) (n s : Nat) : M (PSt K) Unit := do
  unitEl P i s
  probeBasis P en np i
  let st ← getP
  let y := P.F np (clipAt P np st.d)
  M.loop P.op.nout (directEl P np y)
  M.loop P.op.nout (outputEl P en (.vec tmp) e np y)
  M.loop P.op.nout (grabEl P en av e np y pts n s)
  if s + 1 = n then clearQ P i else pure ()

/-- Lines 1392-1534: one input. `CEED_ELEMRESTRICTION_NONE` has no components. -/
def probeIn (P : POper K) (en : Env K) (av tmp e np i : Nat) : M (PSt K) Unit :=
  if (P.op.inp i).vec = .active then
    match (P.op.inp i).rid with
    | none => pure ()
    | some r =>
      let pts := decide ((P.op.rstrs r).rtype = .points)
      let n := (if pts then np else (P.op.rstrs r).elemSize) * (P.op.rstrs r).numComp
      M.loop n (probeEl P en av tmp e np i pts n)
  else pure ()

/-- One iteration of `CeedOperatorInputBasisAtPoints_Ref`, lines 887-947, with `skip_active = true`. -/
def passEl (P : POper K) (en : Env K) (e np i : Nat) : M (PSt K) Unit :=
  if (P.op.inp i).vec = .active then pure () else evalEl P en e np i

/-- Lines 1382-1536: one element. -/
def diagElement (P : POper K) (en : Env K) (av tmp e : Nat) : M (PSt K) Unit := do
  let np ← coordsEl P e
  M.loop P.op.nin (passEl P en e np)
  M.loop P.op.nin (probeIn P en av tmp e np)
  let s ← getP
  setOff (s.off + np)

/-- `ceed-ref-operator.c` 1320-1553 `CeedOperatorLinearAssembleAddDiagonalAtPoints_Ref`, adding to vector `av`. -/
def addDiagAtCore (P : POper K) (en : Env K) (av tmp : Nat) : M (PSt K) Unit := do
  setupAt P en
  onP (zeroVec (.vec tmp))
  M.loop P.op.nin (clearActive P)
  onP (setupInputs P.op .null true)
  setOff 0
  M.loop P.op.ne (diagElement P en av tmp)
  onP (M.loop P.op.nin (restoreIn P.op true))

/-- `interface/ceed-preconditioning.c` 2067-2106 `CeedOperatorLinearAssembleAddDiagonal` on a single operator at points that
is ready; `isz`, `osz` are the lengths of its active input and output. -/
def addDiagAt (P : POper K) (en : Env K) (isz osz : Nat) (av tmp : Nat) : M (PSt K) Unit := do
  M.check (isz = osz) .dimension
  if P.op.ne = 0 then pure () else addDiagAtCore P en av tmp

/-- `interface/ceed-preconditioning.c` 2007-2047 `CeedOperatorLinearAssembleDiagonal` on a single operator at points that is
ready. -/
def assembleDiagAt (P : POper K) (en : Env K) (isz osz : Nat) (av tmp : Nat) : M (PSt K) Unit := do
  M.check (isz = osz) .dimension
  if P.op.ne = 0 then pure () else do
    onP (zeroVec (.vec av))
    addDiagAtCore P en av tmp

end Operator
end Verif
