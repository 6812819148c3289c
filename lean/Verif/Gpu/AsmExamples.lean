import Verif.Gpu.AsmProps
import Verif.Gpu.Examples
import Verif.Operator.FullExamples

/-!
# C70: examples, and schedules on which matrices are assembled wrongly on a device
-/

set_option linter.unusedSectionVars false

namespace Verif.Gpu
open Finset
open Verif.Operator
open Verif.Restriction (Rstr Made)
open Verif.Basis (EMode)

/-! ## Schedules with barriers -/

section
variable {α : Type} [Add α]

/-- The thread has arrived at a barrier. -/
def Prog.atSync : Prog α → Bool
  | .sync _ => true
  | _ => false

theorem atSync_eq {p : Prog α} (h : p.atSync = true) : ∃ k, p = .sync k := by
  cases p <;> first | exact ⟨_, rfl⟩ | cases h

/-- Run the threads of block 0 in the order of the list; `none` is a barrier that all threads have reached. -/
def schedS (G B : Nat) : List (Option Nat) → Cfg α → Option (Cfg α)
  | [], c => some c
  | some t :: l, c => match stepT G B c 0 t with
    | some c' => schedS G B l c'
    | none => none
  | none :: l, c =>
    if 0 < G ∧ 0 < B ∧ ∀ t < B, (c.prog 0 t).atSync = true then schedS G B l ⟨c.mem, passBlock c.prog 0⟩ else none

theorem schedS_reach {G B : Nat} {c₀ : Cfg α} : ∀ {l : List (Option Nat)} {c c' : Cfg α}, Reach G B c₀ c →
    schedS G B l c = some c' → Reach G B c₀ c'
  | [], c, c', hr, h => by
    cases h
    exact hr
  | some t :: l, c, c', hr, h => by
    unfold schedS at h
    split at h
    · next c₁ hs => exact schedS_reach (.step hr (stepT_step hs)) h
    · cases h
  | none :: l, c, c', hr, h => by
    unfold schedS at h
    split at h
    · next hs =>
      obtain ⟨h1, h2, h3⟩ := hs
      obtain ⟨k, hk⟩ := atSync_eq (h3 0 h2)
      exact schedS_reach (.step hr (.sync h1 h2 hk fun t ht => by
        obtain ⟨k, hk⟩ := atSync_eq (h3 t ht)
        rw [hk]; exact trivial)) h
    · cases h

/-- Threads `t` and `t'` of block 0 are about to access the same entry, one of them writing. -/
def clash (c : Cfg α) (t t' : Nat) : Bool :=
  match (c.prog 0 t).next, (c.prog 0 t').next with
  | some (a, i, κ), some (a', i', κ') => decide (a = a' ∧ i = i' ∧ κ = .write ∧ κ' ≠ .atomic)
  | _, _ => false

theorem clash_race {G B : Nat} {c : Cfg α} {t t' : Nat} (hG : 0 < G) (ht : t < B) (ht' : t' < B) (hne : t ≠ t')
    (h : clash c t t' = true) : Race G B c := by
  unfold clash at h
  split at h
  · next a i κ a' i' κ' h1 h2 =>
    rw [decide_eq_true_eq] at h
    obtain ⟨rfl, rfl, rfl, h3⟩ := h
    exact ⟨0, hG, t, ht, 0, hG, t', ht', by simpa using hne, a, i, .write, κ', h1, h2, by simp, by simp⟩
  · cases h

end

/-- A schedule `l₁ ++ l₂` with a race between `t` and `t'` after `l₁`, which ends with `v[j] = z`. -/
def badRun (l₁ l₂ : List (Option Nat)) (t t' j : Nat) (L : Launch Int) (z : Int) : Bool :=
  decide (0 < L.G ∧ t < L.B ∧ t' < L.B ∧ t ≠ t') && match schedS L.G L.B l₁ L.cfg with
  | none => false
  | some c => clash c t t' && match schedS L.G L.B l₂ c with
    | none => false
    | some c' => decide (∀ b < L.G, ∀ t < L.B, (c'.prog b t).isDone = true) && decide (c'.mem.val .v j = z)

theorem badRun_bad {l₁ l₂ : List (Option Nat)} {t t' j : Nat} {L : Launch Int} {z : Int}
    (h : badRun l₁ l₂ t t' j L z = true) :
    (∃ c, Reach L.G L.B L.cfg c ∧ Race L.G L.B c) ∧
      ∃ c, Reach L.G L.B L.cfg c ∧ Final L.G L.B c ∧ c.mem.val .v j = z := by
  unfold badRun at h
  rw [Bool.and_eq_true, decide_eq_true_eq] at h
  obtain ⟨⟨h1, h2, h3, h4⟩, h⟩ := h
  split at h
  · cases h
  · next c hc =>
    rw [Bool.and_eq_true] at h
    obtain ⟨hw, h⟩ := h
    split at h
    · cases h
    · next c' hc' =>
      rw [Bool.and_eq_true, decide_eq_true_eq, decide_eq_true_eq] at h
      have hr := schedS_reach (.start : Reach L.G L.B L.cfg L.cfg) hc
      exact ⟨⟨c, hr, clash_race h1 h2 h3 h4 hw⟩, c', schedS_reach hr hc', fun b hb t ht => isDone_eq (h.1 b hb t ht), h.2⟩

/-! ## The hypotheses are met -/

/-- The assembled QFunction of the host in the order of the device. -/
def devOf {α : Type} [CommRing α] (op : Oper α) (H : Buf α) : Buf α :=
  ⟨op.ne * op.Q * op.cIn * op.cOut, fun x =>
    H.val (((x / op.Q % op.ne * op.cIn + x / op.Q / op.ne / op.cOut) * op.cOut + x / op.Q / op.ne % op.cOut) * op.Q +
      x % op.Q)⟩

theorem devOf_val {α : Type} [CommRing α] (op : Oper α) (H : Buf α) {e c d q : Nat} (he : e < op.ne) (hd : d < op.cOut)
    (hq : q < op.Q) : (devOf op H).val (((c * op.cOut + d) * op.ne + e) * op.Q + q) =
      H.val (((e * op.cIn + c) * op.cOut + d) * op.Q + q) := by
  unfold devOf
  simp only [div_enc hq, mod_enc hq, div_enc hd, mod_enc hd, div_enc he, mod_enc he]

theorem devOf_columns {α : Type} [CommRing α] {op : Oper α} {S : Meaning α} {L : Nat → Nat → α} {H : Buf α}
    (h : Columns op S L H) : ColumnsDev op S L (devOf op H) := by
  refine ⟨rfl, fun e he i hi ha c hc o ho hao d hd q hq => ?_⟩
  rw [devOf_val op H he (offset_add_lt _ ho hao hd) hq]
  exact h.2 e he i hi ha c hc o ho hao d hd q hq

/-- The call succeeds. -/
def okO {σ β : Type} : Out σ β → Bool
  | .ok _ _ => true
  | _ => false
def okR {β : Type} : Res β → Bool
  | .ok _ => true
  | _ => false

theorem okO_ok {σ β : Type} {x : Out σ β} (h : okO x = true) : ∃ s v, x = .ok s v := by
  cases x with
  | ok s v => exact ⟨s, v, rfl⟩
  | _ => cases h
theorem okR_ok {β : Type} {x : Res β} (h : okR x = true) : ∃ v, x = .ok v := by
  cases x with
  | ok v => exact ⟨v, rfl⟩
  | _ => cases h

/-- Two elements, two active inputs, two outputs. -/
example : ∃ D N rc' Ln A, OpOK exOp exMeaning ∧ FullOK exOp exPrec exMeaning ∧ LinearQF exOp ∧
    ColumnsDev exOp exMeaning exA.st.L D ∧ countEntries exOp = .ok N ∧ 0 < N ∧
    symbolicSingle exOp exPrec 1 ⟨9, fun _ => (0, 0)⟩ = .ok rc' ∧ 1 + N ≤ 9 ∧
    (∀ ri ro, activePair exOp = .ok (ri, ro) → ((exOp.rstrs ri).rtype = .curlOriented ↔ (exOp.rstrs ro).rtype = .curlOriented) ∧
      ((exOp.rstrs ri).rtype = .curlOriented → (exOp.rstrs ri).elemSize * (exOp.rstrs ro).elemSize ≤ 4)) ∧
    assembleDev ⟨4, 0⟩ (fun _ _ => 0) exOp exPrec D 1 ⟨9, fun _ => 0⟩ = .ok Ln ∧
    IsMatrix exOp exMeaning exA.st.L exPrec.inSize.toNat A := by
  obtain ⟨A, hA⟩ := C44_matrix exOp_ok exOp_linear exA.st.L exPrec_ok.inSize
  have hb : ∃ s v, buildOrUpdate exOp (fun _ _ => 0) exA = .ok s v := okO_ok (by decide +kernel)
  obtain ⟨rc', hrc⟩ : ∃ r, symbolicSingle exOp exPrec 1 ⟨9, fun _ => (0, 0)⟩ = .ok r := okR_ok (by decide +kernel)
  obtain ⟨s, H, hH⟩ := hb
  have hc := C43_build_partial exOp_ok exA_unassembled (.refl _) (.inl rfl) hH
  obtain ⟨Ln, hL⟩ := C70_succeeds exOp_ok exPrec_ok.full (ri := 0) (ro := 0) rfl (by decide) (by decide) (by decide)
    (βi := some 0) (βo := some 0) (by decide) (by decide) (dv := ⟨4, 0⟩) (by decide) (fun _ _ => 0) (devOf exOp H) 1
    ⟨9, fun _ => 0⟩
  refine ⟨devOf exOp H, 8, rc', Ln, A, exOp_ok, exPrec_ok.full, exOp_linear, devOf_columns hc, rfl, by decide, hrc, by decide,
    ?_, hL, hA⟩
  intro ri ro hr
  cases hr
  exact ⟨Iff.rfl, fun _ => by decide⟩

/-! ## Curl orientations -/

/-- One element with two nodes, values in, gradients out, curl oriented with the matrix `[[1, 1], [0, 1]]`. -/
def cuOp : Oper Int where
  ne := 1
  Q := 1
  nin := 1
  nout := 1
  inp := fun _ => ⟨.active, some 0, some exBasis, .interp, 1⟩
  out := fun _ => ⟨.active, some 0, some exBasis, .grad, 1⟩
  rstrs := fun _ => curlNodes
  isId := false
  f := fun x _ q => 5 * x 0 q

def cuMeaning : Meaning Int where
  D := fun _ => Restriction.offsetData 1 2 1 1 ⟨2, (Buf.ofList [0, 1]).val⟩
    (.curl ⟨6, (Buf.ofList [0, 1, 1, 0, 1, 0]).val⟩) .plain
  mIn := fun _ => Buf.ofList [1, 1]
  mOut := fun _ => Buf.ofList [-1, 1]
  w := fun _ => (Buf.ofList [3]).val

def cuPrec : Prec Int := ⟨fun _ => some 0, fun _ => some 0, fun _ => exBasis, 2, 2⟩

theorem cuOp_ok : OpOK cuOp cuMeaning := by
  obtain ⟨⟨b1, b2, b3⟩, ⟨b4, b5, b6⟩, b7⟩ := basis_ok exBasis_made
  have hr : ∀ f : OField Int, f.rid = some 0 → HasRstr cuOp cuMeaning f := fun f hf =>
    ⟨0, 2, hf, Made.offset (checked := true) rfl (Or.inr (Nat.le_refl 2)) (Or.inl rfl), rfl⟩
  refine ⟨?_, ?_, ?_, ?_, ?_⟩
  · intro i hi
    exact ⟨hr _ rfl, exBasis, ⟨rfl, rfl, rfl, rfl, rfl⟩, b1⟩
  · intro o ho
    exact ⟨hr _ rfl, exBasis, ⟨rfl, rfl, rfl, rfl, rfl⟩, b5, fun _ => b6⟩
  · intro i j hij hj
    have hj' : j < 1 := hj
    omega
  · intro j o hjo ho
    have ho' : o < 1 := ho
    omega
  · intro h; cases h

theorem cuOp_linear : LinearQF cuOp := by
  intro p o ho hao d hd q hq
  refine ⟨fun _ _ => 5, ?_⟩
  intro u hu _
  have hd' : d < 1 := hd
  have hd0 : d = 0 := by omega
  subst hd0
  show 5 * u 0 (0 * 1 + q) = ∑ i ∈ range 1, if FVec.active = FVec.active then ∑ c ∈ range 1, 5 * u i (c * 1 + q) else 0
  simp

theorem cuPrec_ok : FullOK cuOp cuPrec cuMeaning := by
  have h1 : HasBasis cuOp cuPrec cuMeaning (cuOp.inp 0) (some 0) (Buf.ofList [1, 1]) :=
    ⟨by decide, 0, rfl, rfl, ⟨2, (Buf.ofList [1, 1]).val⟩, fun x => rfl, rfl, by decide⟩
  have h2 : HasBasis cuOp cuPrec cuMeaning (cuOp.out 0) (some 0) (Buf.ofList [-1, 1]) :=
    ⟨by decide, 0, rfl, rfl, ⟨2, (Buf.ofList [-1, 1]).val⟩, fun x => rfl, rfl, by decide⟩
  refine ⟨fun i _ _ => .inr h1, fun o _ _ => .inr h2, fun i _ _ r hr => rfl, fun i _ _ r hr => rfl, ?_, ?_⟩
  · intro i j hij hj
    have hj' : j < 1 := hj
    omega
  · intro i j hij hj
    have hj' : j < 1 := hj
    omega

/-- The assembled QFunction. -/
def cuD : Buf Int := ⟨1, fun _ => 5⟩

theorem cuD_columns (L : Nat → Nat → Int) : ColumnsDev cuOp cuMeaning L cuD := by
  refine ⟨rfl, fun e he i hi ha c hc o ho hao d hd q hq => ?_⟩
  have hi' : i < 1 := hi
  have hc' : c < 1 := hc
  have hd' : d < 1 := hd
  have hq' : q < 1 := hq
  obtain ⟨rfl, rfl, rfl, rfl⟩ : i = 0 ∧ c = 0 ∧ d = 0 ∧ q = 0 := by omega
  rfl

/-- The same with curl orientations: four threads, one for each entry. -/
example : ∃ rc' Ln A, OpOK cuOp cuMeaning ∧ FullOK cuOp cuPrec cuMeaning ∧ LinearQF cuOp ∧
    ColumnsDev cuOp cuMeaning exA.st.L cuD ∧ countEntries cuOp = .ok 4 ∧
    symbolicSingle cuOp cuPrec 0 ⟨4, fun _ => (0, 0)⟩ = .ok rc' ∧
    (∀ ri ro, activePair cuOp = .ok (ri, ro) → ((cuOp.rstrs ri).rtype = .curlOriented ↔ (cuOp.rstrs ro).rtype = .curlOriented) ∧
      ((cuOp.rstrs ri).rtype = .curlOriented → (cuOp.rstrs ri).elemSize * (cuOp.rstrs ro).elemSize ≤ 4)) ∧
    assembleDev ⟨4, 0⟩ (fun _ _ => 0) cuOp cuPrec cuD 0 ⟨4, fun _ => 0⟩ = .ok Ln ∧
    IsMatrix cuOp cuMeaning exA.st.L cuPrec.inSize.toNat A := by
  obtain ⟨A, hA⟩ := C44_matrix cuOp_ok cuOp_linear exA.st.L cuPrec_ok.inSize
  obtain ⟨rc', hrc⟩ : ∃ r, symbolicSingle cuOp cuPrec 0 ⟨4, fun _ => (0, 0)⟩ = .ok r := okR_ok (by decide +kernel)
  obtain ⟨Ln, hL⟩ := C70_succeeds cuOp_ok cuPrec_ok (ri := 0) (ro := 0) rfl (by decide) (by decide) (by decide)
    (βi := some 0) (βo := some 0) (by decide) (by decide) (dv := ⟨4, 0⟩) (by decide) (fun _ _ => 0) cuD 0 ⟨4, fun _ => 0⟩
  refine ⟨rc', Ln, A, cuOp_ok, cuPrec_ok, cuOp_linear, cuD_columns _, rfl, hrc, ?_, hL, hA⟩
  intro ri ro hr
  cases hr
  exact ⟨Iff.rfl, fun _ => by decide⟩

/-- A step of each of the threads `l`, `n` times. -/
def rep (n : Nat) (l : List Nat) : List (Option Nat) := (List.replicate n (l.map some)).flatten

/-- One schedule of the four threads. -/
def cuGood : List (Option Nat) :=
  rep 4 [0, 1, 2, 3] ++ [none] ++ rep 3 [3, 2, 1, 0] ++ [none] ++ rep 3 [0, 1, 2, 3]

/-- The values, by the device and by the host. -/
example : (schedS 1 4 cuGood (launchOf (assembleDev ⟨4, 0⟩ (fun _ _ => 0) cuOp cuPrec cuD 0 ⟨4, fun _ => 0⟩)).cfg).map
      (fun c => (List.range 4).map (c.mem.val .v)) = some [-5, -10, 0, 0] ∧
    vecAfter (assemble cuOp cuPrec false (fun _ _ => 0) 1 (roomA 4)) 1 = some [-5, -10, 0, 0] := by decide +kernel

/-! ## Disagreements -/

/-- C70 fails for curl oriented restrictions if an element has more entries than a block may have threads (for example
edge elements of degree 3 on hexahedra: 144 nodes, 1024 threads). The fallback then has one thread for each column, which
goes through the rows; the shared array `s_C` is overwritten for the next row while another thread may still be reading
it, as there is no barrier at the end of the loop (`cuda-ref-operator-assemble.h` 77-83). With two threads for four entries,
there is a data race and a schedule on which the second entry ends as 0 instead of -10. -/
theorem C70_curl_fallback_witness : ∃ Ln,
    assembleDev ⟨2, 0⟩ (fun _ _ => 0) cuOp cuPrec cuD 0 ⟨4, fun _ => 0⟩ = .ok Ln ∧
    (∃ c, Reach Ln.G Ln.B Ln.cfg c ∧ Race Ln.G Ln.B c) ∧
    (∃ c, Reach Ln.G Ln.B Ln.cfg c ∧ Final Ln.G Ln.B c ∧ c.mem.val .v 1 = 0) ∧
    vecAfter (assemble cuOp cuPrec false (fun _ _ => 0) 1 (roomA 4)) 1 = some [-5, -10, 0, 0] := by
  have h := badRun_bad (L := launchOf (assembleDev ⟨2, 0⟩ (fun _ _ => 0) cuOp cuPrec cuD 0 ⟨4, fun _ => 0⟩))
    (l₁ := rep 4 [0, 1] ++ [none] ++ rep 6 [0]) (l₂ := rep 1 [0] ++ rep 3 [1] ++ rep 4 [1] ++ [none] ++ rep 3 [0, 1] ++
      [none] ++ rep 6 [0, 1]) (t := 0) (t' := 1) (j := 1) (z := 0) (by decide +kernel)
  exact ⟨_, launchOf_eq (by decide +kernel), h.1, h.2, by decide +kernel⟩

/-- Two components, the curl oriented restriction on one side only. -/
def halfOp (ci : Bool) : Oper Int where
  ne := 1
  Q := 1
  nin := 1
  nout := 1
  inp := fun _ => ⟨.active, some 0, some blBasis, .interp, 2⟩
  out := fun _ => ⟨.active, some 1, some blBasis, .grad, 2⟩
  rstrs := fun r =>
    let n : Rstr := { curlNodes with numComp := 2, compStride := 2, lSize := 4, eSize := 4 }
    if (r = 0 ↔ ci) then n else { n with rtype := .standard, curlOrients := ⟨0, fun _ => 0⟩ }
  isId := false
  f := fun x _ q => if q = 0 then 2 * x 0 0 + 3 * x 0 1 else 5 * x 0 0 + 7 * x 0 1
def halfPrec : Prec Int := ⟨fun _ => some 0, fun _ => some 0, fun _ => blBasis, 4, 4⟩
def halfD : Buf Int := ⟨4, (Buf.ofList [2, 5, 3, 7]).val⟩
def halfL (ci : Bool) : Launch Int :=
  launchOf (assembleDev ⟨4, 0⟩ (fun _ _ => 0) (halfOp ci) halfPrec halfD 0 ⟨16, fun _ => 0⟩)

/-- C70 fails if only the restriction of the inputs is curl oriented and there are several components: `s_C` is overwritten
for the next component while another thread may still be reading it, as only curl oriented outputs have a second barrier
(line 90). There is a data race and a schedule on which the second entry ends as -7 instead of -4. -/
theorem C70_curl_input_witness :
    assembleDev ⟨4, 0⟩ (fun _ _ => 0) (halfOp true) halfPrec halfD 0 ⟨16, fun _ => 0⟩ = .ok (halfL true) ∧
    (∃ c, Reach (halfL true).G (halfL true).B (halfL true).cfg c ∧ Race (halfL true).G (halfL true).B c) ∧
    (∃ c, Reach (halfL true).G (halfL true).B (halfL true).cfg c ∧ Final (halfL true).G (halfL true).B c ∧
      c.mem.val .v 1 = -7) ∧
    vecAfter (assemble (halfOp true) halfPrec false (fun _ _ => 0) 1 (roomA 16)) 1 =
      some [-2, -4, 2, 4, -5, -10, 5, 10, -3, -6, 3, 6, -7, -14, 7, 14] := by
  have h := badRun_bad (L := halfL true) (l₁ := rep 4 [0, 1, 2, 3] ++ [none] ++ rep 8 [0])
    (l₂ := rep 1 [0] ++ rep 9 [1, 2, 3] ++ [none] ++ rep 9 [0, 1, 2, 3] ++ [none] ++ rep 9 [0, 1, 2, 3] ++ [none] ++
      rep 5 [0, 1, 2, 3]) (t := 0) (t' := 1) (j := 1) (z := -7) (by decide +kernel)
  exact ⟨launchOf_eq (by decide +kernel), h.1, h.2, by decide +kernel⟩

/-- The same if only the restriction of the outputs is curl oriented, with `s_CT`: the third entry ends as -3 instead
of 0. -/
theorem C70_curl_output_witness :
    assembleDev ⟨4, 0⟩ (fun _ _ => 0) (halfOp false) halfPrec halfD 0 ⟨16, fun _ => 0⟩ = .ok (halfL false) ∧
    (∃ c, Reach (halfL false).G (halfL false).B (halfL false).cfg c ∧ Race (halfL false).G (halfL false).B c) ∧
    (∃ c, Reach (halfL false).G (halfL false).B (halfL false).cfg c ∧ Final (halfL false).G (halfL false).B c ∧
      c.mem.val .v 2 = -3) ∧
    vecAfter (assemble (halfOp false) halfPrec false (fun _ _ => 0) 1 (roomA 16)) 1 =
      some [-2, -2, 0, 0, -5, -5, 0, 0, -3, -3, 0, 0, -7, -7, 0, 0] := by
  have h := badRun_bad (L := halfL false) (l₁ := rep 4 [0, 1, 2, 3] ++ [none] ++ rep 6 [0])
    (l₂ := rep 1 [0] ++ rep 7 [1, 2, 3] ++ [none] ++ rep 7 [0, 1, 2, 3] ++ [none] ++ rep 7 [0, 1, 2, 3] ++ [none] ++
      rep 3 [0, 1, 2, 3]) (t := 0) (t' := 2) (j := 2) (z := -3) (by decide +kernel)
  exact ⟨launchOf_eq (by decide +kernel), h.1, h.2, by decide +kernel⟩

/-- C70 fails if two active inputs in a row evaluate the gradient with the same basis, as on the host (C45): the matrices
are read beyond their end (`ceed-cuda-ref-operator.c` 1613-1623). -/
theorem C70_adjacent_witness (D : Buf Int) (v : Buf Int) :
    assembleDev cudaDevice (fun _ _ => 0) gradOp gradPrec D 0 v = .ub ∧
    matrixOf gradOp 3 exStart = [some 1, some 4, some 0, some 1, some 5, some 4, some 0, some 1, some 4] := by
  refine ⟨rfl, by decide +kernel⟩

/-- Two bases. -/
example (D v : Buf Int) : assembleDev cudaDevice (fun _ _ => 0) exOp
    { exPrec with inB := fun i => if i = 2 then some 0 else some 1 } D 0 v = .err .backend := rfl

/-- Elements with two nodes on a device with one thread for each block. -/
example (D v : Buf Int) : assembleDev ⟨1, 0⟩ (fun _ _ => 0) exOp exPrec D 0 v = .err .backend :=
  C70_large_rejected exOp_ok exPrec_ok.full (ri := 0) (ro := 0) rfl (by decide) (by decide) (βi := some 0) (βo := some 0)
    (by decide) (by decide) (by decide) (by decide) _ _ _ _

end Verif.Gpu
