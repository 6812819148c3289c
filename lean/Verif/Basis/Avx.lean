import Verif.Basis.Model

/-!
# Tensor contractions with vector registers

`backends/avx/ceed-avx-tensor.c`. A register holds four numbers (`__m256d` of doubles, `__m128` of floats). Loads and stores
of registers touch four neighbouring entries of an array, all of which have to lie in the array; reading or writing any
other entry is undefined behaviour. Fused and separate multiplications and additions are the same in a ring.
-/

namespace Verif
namespace Basis

open Restriction (TMode)

variable {α : Type _} [CommRing α]

/-- A register, lines 13-37. -/
abbrev Reg (α : Type _) := Fin 4 → α

/-- `loadu`, lines 15 and 27. -/
def loadu (b : Buf α) (i : Nat) : Res (Reg α) :=
  if i + 4 ≤ b.len then .ok fun l => b.val (i + l.val) else .ub

/-- `storeu`, lines 16 and 28. -/
def storeu (b : Buf α) (i : Nat) (x : Reg α) : Res (Buf α) :=
  if i + 4 ≤ b.len then
    .ok ⟨b.len, fun k => if h : i ≤ k ∧ k < i + 4 then x ⟨k - i, by omega⟩ else b.val k⟩
  else .ub

/-- `set1`, lines 18 and 30. -/
def set1 (x : α) : Reg α := fun _ => x

/-- `set`, lines 17 and 29, with the arguments in increasing order (the intrinsic takes them in decreasing order). -/
def set4 (x0 x1 x2 x3 : α) : Reg α := fun l => if l.val = 0 then x0 else if l.val = 1 then x1 else if l.val = 2 then x2 else x3

/-- The register made of the last `w` entries of a row, filled up with zeros: the cascades of lines 127-130 (entries of `u`) and
222-232 (of `t`). -/
def tail4 (ent : Nat → Res α) (full : Res (Reg α)) (w : Nat) : Res (Reg α) :=
  if w = 1 then do
    let x0 ← ent 0
    Res.ok (set4 x0 0 0 0)
  else if w = 2 then do
    let x1 ← ent 1
    let x0 ← ent 0
    Res.ok (set4 x0 x1 0 0)
  else if w = 3 then do
    let x2 ← ent 2
    let x1 ← ent 1
    let x0 ← ent 0
    Res.ok (set4 x0 x1 x2 0)
  else full

/-- Four entries, lines 173-174, 197-198, 230-231. -/
def all4 (ent : Nat → Res α) : Res (Reg α) := do
  let x3 ← ent 3
  let x2 ← ent 2
  let x1 ← ent 1
  let x0 ← ent 0
  Res.ok (set4 x0 x1 x2 x3)

/-- Load a tile of `n` rows of `m` registers (`vv[jj][cc] = loadu(&v[...])`, lines 57-59, 80-82, 123, 168-170, 192-194,
218). `N` is the number of registers declared, `junk` their contents. -/
def tileLoad (N n m : Nat) (pos : Nat → Nat → Nat) (junk : Nat → Reg α) (v : Buf α) : Res (Buf (Reg α)) :=
  loop n (fun r vv => loop m (fun k vv => do
    let x ← loadu v (pos r k)
    vv.wr (r * m + k) x) vv) ⟨N, junk⟩

/-- Store a tile, lines 68-70, 92-94, 135, 181-183, 205-207, 237. -/
def tileStore (n m : Nat) (pos : Nat → Nat → Nat) (vv : Buf (Reg α)) (v : Buf α) : Res (Buf α) :=
  loop n (fun r v => loop m (fun k v => do
    let x ← vv.rd (r * m + k)
    storeu v (pos r k) x) v) v

/-- One tile: load, accumulate, store. -/
def tile (N n m : Nat) (pos : Nat → Nat → Nat) (junk : Nat → Reg α) (acc : Buf (Reg α) → Res (Buf (Reg α)))
    (v : Buf α) : Res (Buf α) := do
  let vv ← tileLoad N n m pos junk v
  let vv ← acc vv
  tileStore n m pos vv v

/-- Lines 60-67 and 83-91: accumulation in a tile of `n` rows of `CC / 4` registers. -/
def accBlocked (a j c n CC B C J : Nat) (t : Buf α) (tof : Nat) (tm : TMode) (u : Buf α) (uo : Nat)
    (vv : Buf (Reg α)) : Res (Buf (Reg α)) :=
  let s := tStride tm B J
  loop B (fun b vv => loop n (fun jj vv => do
    let tq ← t.rd (tof + ((j + jj) * s.1 + b * s.2))
    loop (CC / 4) (fun cc vv => do
      let x ← loadu u (uo + ((a * B + b) * C + c + cc * 4))
      vv.addAt (jj * (CC / 4) + cc) (set1 tq * x)) vv) vv) vv

/-- Lines 42-99 `CeedTensorContract_Avx_Blocked`. -/
def avxBlocked (JJ CC A B C J : Nat) (t : Buf α) (tof : Nat) (tm : TMode) (junk : Nat → Reg α) (u : Buf α) (uo : Nat)
    (v : Buf α) (vo : Nat) : Res (Buf α) :=
  loop A (fun a v => do
    let v ← loop (J / JJ) (fun j v => loop (C / CC) (fun c v =>
      tile (JJ * (CC / 4)) JJ (CC / 4) (fun jj cc => vo + ((a * J + j * JJ + jj) * C + c * CC + cc * 4)) junk
        (accBlocked a (j * JJ) (c * CC) JJ CC B C J t tof tm u uo) v) v) v
    let j := J / JJ * JJ
    if j < J then
      loop (C / CC) (fun c v =>
        tile (JJ * (CC / 4)) (J - j) (CC / 4) (fun jj cc => vo + ((a * J + j + jj) * C + c * CC + cc * 4)) junk
          (accBlocked a j (c * CC) (J - j) CC B C J t tof tm u uo) v) v
    else Res.ok v) v

/-- Lines 124-134: accumulation in a tile of `n` rows of one register each, of columns `c` and up. -/
def accRemainder (a j c n B C J : Nat) (t : Buf α) (tof : Nat) (tm : TMode) (u : Buf α) (uo : Nat)
    (vv : Buf (Reg α)) : Res (Buf (Reg α)) :=
  let s := tStride tm B J
  loop B (fun b vv => do
    let x ← tail4 (fun l => u.rd (uo + ((a * B + b) * C + c + l))) (loadu u (uo + ((a * B + b) * C + c))) (C - c)
    loop n (fun jj vv => do
      let tq ← t.rd (tof + ((j + jj) * s.1 + b * s.2))
      vv.addAt (jj * 1 + 0) (x * set1 tq)) vv) vv

/-- `J_break`, `A_break`: lines 114 and 210. It is negative for zero rows. -/
def brk (J JJ : Nat) : Int := if J % JJ ≠ 0 then (J / JJ * JJ : Nat) else ((J / JJ : Nat) - 1 : Int) * (JJ : Nat)

/-- Lines 104-148 `CeedTensorContract_Avx_Remainder`. The last loop over rows starts at a negative row when there is no
row. -/
def avxRemainder (JJ CC A B C J : Nat) (t : Buf α) (tof : Nat) (tm : TMode) (junk : Nat → Reg α) (u : Buf α) (uo : Nat)
    (v : Buf α) (vo : Nat) : Res (Buf α) :=
  let s := tStride tm B J
  let c0 := C / CC * CC
  loop A (fun a v => do
    let v ← loop ((C - c0 + 3) / 4) (fun i v => loop ((brk J JJ).toNat / JJ) (fun j v =>
      tile JJ JJ 1 (fun jj _ => vo + ((a * J + j * JJ + jj) * C + (c0 + i * 4))) junk
        (accRemainder a (j * JJ) (c0 + i * 4) JJ B C J t tof tm u uo) v) v) v
    if brk J JJ < 0 ∧ 0 < B then .ub
    else
      loop (J - (brk J JJ).toNat) (fun r v => loop B (fun b v => do
        let tq ← t.rd (tof + (((brk J JJ).toNat + r) * s.1 + b * s.2))
        loop (C - c0) (fun c v => do
          let x ← u.rd (uo + ((a * B + b) * C + (c0 + c)))
          v.addAt (vo + ((a * J + ((brk J JJ).toNat + r)) * C + (c0 + c))) (tq * x)) v) v) v) v

/-- Lines 171-180 and 195-204: accumulation in a tile of `n` rows of `JJ / 4` registers, without columns. -/
def accSingle (a j n JJ B J : Nat) (t : Buf α) (tof : Nat) (tm : TMode) (u : Buf α) (uo : Nat)
    (vv : Buf (Reg α)) : Res (Buf (Reg α)) :=
  let s := tStride tm B J
  loop B (fun b vv => loop (JJ / 4) (fun jj vv => do
    let x ← all4 fun l => t.rd (tof + ((j + jj * 4 + l) * s.1 + b * s.2))
    loop n (fun aa vv => do
      let y ← u.rd (uo + ((a + aa) * B + b))
      vv.addAt (aa * (JJ / 4) + jj) (x * set1 y)) vv) vv) vv

/-- Lines 219-236: accumulation in a tile of `n` rows of one register each. -/
def accSingleTail (a j n B J : Nat) (t : Buf α) (tof : Nat) (tm : TMode) (u : Buf α) (uo : Nat)
    (vv : Buf (Reg α)) : Res (Buf (Reg α)) :=
  let s := tStride tm B J
  loop B (fun b vv => do
    let x ← tail4 (fun l => t.rd (tof + ((j + l) * s.1 + b * s.2)))
      (all4 fun l => t.rd (tof + ((j + l) * s.1 + b * s.2))) (J - j)
    loop n (fun aa vv => do
      let y ← u.rd (uo + ((a + aa) * B + b))
      vv.addAt (aa * 1 + 0) (x * set1 y)) vv) vv

/-- Lines 153-249 `CeedTensorContract_Avx_Single`. -/
def avxSingle (AA JJ A B J : Nat) (t : Buf α) (tof : Nat) (tm : TMode) (junk : Nat → Reg α) (u : Buf α) (uo : Nat)
    (v : Buf α) (vo : Nat) : Res (Buf α) := do
  let s := tStride tm B J
  let v ← loop (A / AA) (fun a v => loop (J / JJ) (fun j v =>
    tile (AA * (JJ / 4)) AA (JJ / 4) (fun aa jj => vo + ((a * AA + aa) * J + j * JJ + jj * 4)) junk
      (accSingle (a * AA) (j * JJ) AA JJ B J t tof tm u uo) v) v) v
  let a := A / AA * AA
  let v ← loop (J / JJ) (fun j v =>
    tile (AA * (JJ / 4)) (A - a) (JJ / 4) (fun aa jj => vo + ((a + aa) * J + j * JJ + jj * 4)) junk
      (accSingle a (j * JJ) (A - a) JJ B J t tof tm u uo) v) v
  let j0 := J / JJ * JJ
  let v ← loop ((J - j0 + 3) / 4) (fun i v => loop ((brk A AA).toNat / AA) (fun a v =>
    tile AA AA 1 (fun aa _ => vo + ((a * AA + aa) * J + (j0 + i * 4))) junk
      (accSingleTail (a * AA) (j0 + i * 4) AA B J t tof tm u uo) v) v) v
  if brk A AA < 0 ∧ 0 < B ∧ j0 < J then .ub
  else
    loop B (fun b v => loop (J - j0) (fun j v => do
      let tq ← t.rd (tof + ((j0 + j) * s.1 + b * s.2))
      loop (A - (brk A AA).toNat) (fun r v => do
        let x ← u.rd (uo + (((brk A AA).toNat + r) * B + b))
        v.addAt (vo + (((brk A AA).toNat + r) * J + (j0 + j))) (tq * x)) v) v) v

/-- Lines 270-290 `CeedTensorContractApply_Avx`, with 254-265. -/
def contractAvx (junk : Nat → Reg α) (A B C J : Nat) (t : Buf α) (tof : Nat) (tm : TMode) (add : Bool) (u : Buf α) (uo : Nat)
    (v : Buf α) (vo : Nat) : Res (Buf α) := do
  let v ← if add then Res.ok v else loop (A * J * C) (fun q v => v.wr (vo + q) 0) v
  if C = 1 then avxSingle 4 8 A B J t tof tm junk u uo v vo
  else do
    let v ← if 8 ≤ C then avxBlocked 4 8 A B C J t tof tm junk u uo v vo else Res.ok v
    if C % 8 ≠ 0 then avxRemainder 8 8 A B C J t tof tm junk u uo v vo else Res.ok v

end Basis
end Verif
