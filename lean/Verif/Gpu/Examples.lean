import Verif.Gpu.Props

/-!
# Schedules on which the device restrictions go wrong, and concrete cases of C61
-/

namespace Verif.Gpu
open Verif.Restriction

section Sched
variable {α : Type} [Add α]

/-- Run the next access of a thread. -/
def stepT (G B : Nat) (c : Cfg α) (b t : Nat) : Option (Cfg α) :=
  if b < G ∧ t < B then
    match c.prog b t with
    | .rd a i k => if InB c.mem.len a i then some ⟨c.mem, setProg c.prog b t (k (c.mem.val a i.toNat))⟩ else none
    | .wr a i x k =>
      if InB c.mem.len a i then some ⟨⟨c.mem.len, upd c.mem.val a i.toNat x⟩, setProg c.prog b t k⟩ else none
    | .add a i x k =>
      if InB c.mem.len a i then
        some ⟨⟨c.mem.len, upd c.mem.val a i.toNat (c.mem.val a i.toNat + x)⟩, setProg c.prog b t k⟩
      else none
    | _ => none
  else none

theorem stepT_step {G B : Nat} {c c' : Cfg α} {b t : Nat} (h : stepT G B c b t = some c') : Step G B c c' := by
  unfold stepT at h
  split at h
  · next hbt =>
    split at h
    · next hp =>
      split at h
      · next hi => cases h; exact .rd hbt.1 hbt.2 hp hi
      · cases h
    · next hp =>
      split at h
      · next hi => cases h; exact .wr hbt.1 hbt.2 hp hi
      · cases h
    · next hp =>
      split at h
      · next hi => cases h; exact .add hbt.1 hbt.2 hp hi
      · cases h
    · cases h
  · cases h

/-- Run the threads of block 0 in the order of the list. -/
def sched (G B : Nat) : List Nat → Cfg α → Option (Cfg α)
  | [], c => some c
  | t :: l, c => match stepT G B c 0 t with
    | some c' => sched G B l c'
    | none => none

theorem sched_reach {G B : Nat} {c₀ : Cfg α} : ∀ {l : List Nat} {c c' : Cfg α}, Reach G B c₀ c →
    sched G B l c = some c' → Reach G B c₀ c'
  | [], c, c', hr, h => by
    cases h
    exact hr
  | t :: l, c, c', hr, h => by
    unfold sched at h
    split at h
    · next c₁ hs => exact sched_reach (.step hr (stepT_step hs)) h
    · cases h

/-- The thread has ended. -/
def Prog.isDone {α : Type} : Prog α → Bool
  | .done => true
  | _ => false

theorem isDone_eq {p : Prog α} (h : p.isDone = true) : p = .done := by
  cases p <;> first | rfl | cases h

/-- Two threads of block 0 are about to write the same entry. -/
def bothWrite (c : Cfg α) (t t' : Nat) (i : Int) : Bool :=
  decide ((c.prog 0 t).next = some (.v, i, .write)) && decide ((c.prog 0 t').next = some (.v, i, .write))

theorem bothWrite_race {G B : Nat} {c : Cfg α} {t t' : Nat} {i : Int} (hG : 0 < G) (ht : t < B) (ht' : t' < B)
    (hne : t ≠ t') (h : bothWrite c t t' i = true) : Race G B c := by
  unfold bothWrite at h
  rw [Bool.and_eq_true, decide_eq_true_eq, decide_eq_true_eq] at h
  exact ⟨0, hG, t, ht, 0, hG, t', ht', by simpa using hne, .v, i, .write, .write, h.1, h.2, by simp, by simp⟩

/-- A schedule `l₁ ++ l₂` with a race after `l₁`, ending with `v[j] = z`. -/
theorem bad_schedule {G B : Nat} {c₀ : Cfg α} (l₁ l₂ : List Nat) {t t' : Nat} {i : Int} (hG : 0 < G) (ht : t < B)
    (ht' : t' < B) (hne : t ≠ t') {P : α → Prop} {j : Nat}
    (h : ∃ c, sched G B l₁ c₀ = some c ∧ bothWrite c t t' i = true ∧ ∃ c', sched G B l₂ c = some c' ∧
      (∀ b < G, ∀ t < B, (c'.prog b t).isDone = true) ∧ P (c'.mem.val .v j)) :
    (∃ c, Reach G B c₀ c ∧ Race G B c) ∧ ∃ c, Reach G B c₀ c ∧ Final G B c ∧ P (c.mem.val .v j) := by
  obtain ⟨c, e1, hw, c', e2, hd, hp⟩ := h
  have hr := sched_reach (.start : Reach G B c₀ c₀) e1
  exact ⟨⟨c, hr, bothWrite_race hG ht ht' hne hw⟩, c', sched_reach hr e2,
    fun b hb t ht => isDone_eq (hd b hb t ht), hp⟩

end Sched

/-- Evaluate a schedule. -/
def evalSched (l₁ l₂ : List Nat) (t t' : Nat) (i : Int) (j : Nat) (L : Launch Int) (z : Int) : Bool :=
  decide (0 < L.G ∧ t < L.B ∧ t' < L.B ∧ t ≠ t') && match sched L.G L.B l₁ L.cfg with
  | none => false
  | some c => bothWrite c t t' i && match sched L.G L.B l₂ c with
    | none => false
    | some c' => decide (∀ b < L.G, ∀ t < L.B, (c'.prog b t).isDone = true) && decide (c'.mem.val .v j = z)

theorem evalSched_bad {l₁ l₂ : List Nat} {t t' : Nat} {i : Int} {j : Nat} {L : Launch Int} {z : Int}
    (h : evalSched l₁ l₂ t t' i j L z = true) :
    (∃ c, Reach L.G L.B L.cfg c ∧ Race L.G L.B c) ∧
      ∃ c, Reach L.G L.B L.cfg c ∧ Final L.G L.B c ∧ c.mem.val .v j = z := by
  unfold evalSched at h
  rw [Bool.and_eq_true, decide_eq_true_eq] at h
  obtain ⟨⟨h1, h2, h3, h4⟩, h⟩ := h
  split at h
  · cases h
  · next c hc =>
    rw [Bool.and_eq_true] at h
    obtain ⟨hw, h⟩ := h
    split at h
    · cases h
    · next c' hc' =>
      rw [Bool.and_eq_true, decide_eq_true_eq, decide_eq_true_eq] at h
      exact bad_schedule (P := fun y => y = z) l₁ l₂ h1 h2 h3 h4 ⟨c, hc, hw, c', hc', h.1, h.2⟩

/-- The launch of a call that succeeds. -/
def launchOf (x : Res (Launch Int)) : Launch Int :=
  match x with
  | .ok L => L
  | _ => ⟨0, 0, launch (fun _ _ => pure ()) (memOf ⟨0, fun _ => 0⟩ ⟨0, fun _ => 0⟩)⟩

/-- The call launches. -/
def launches (x : Res (Launch Int)) : Bool :=
  match x with
  | .ok _ => true
  | _ => false

theorem launchOf_eq {x : Res (Launch Int)} (h : launches x = true) : x = .ok (launchOf x) := by
  cases x <;> first | rfl | cases h

/-! ### Strided transpose with overlapping strides -/

/-- One element of two nodes that share the first entry of the L-vector. -/
def overlapR : Rstr where
  rtype := .strided
  numElem := 1
  elemSize := 2
  numComp := 1
  compStride := 0
  lSize := 2
  eSize := 2
  numBlock := 1
  blockSize := 1
  numPoints := 0
  strides := some (0, 1, 0)
  offsets := ⟨0, fun _ => 0⟩
  orients := ⟨0, fun _ => false⟩
  curlOrients := ⟨0, fun _ => 0⟩

/-- E-vector `5 7`. -/
def overlapU : Buf Int := ⟨2, fun i => if i = 0 then 5 else 7⟩

/-- L-vector of zeros. -/
def zeroV (n : Nat) : Buf Int := ⟨n, fun _ => 0⟩

/-- The strided E-vector to L-vector kernel adds without atomics (`cuda-ref-restriction-strided.h` 37): for strides that
give one entry to two nodes, which creation accepts, there is a data race, and a schedule that loses a contribution: the
entry ends as 7, the contributions are 5 and 7. -/
theorem C61_strided_overlap_witness :
    createStrided 1 2 1 2 (0, 1, 0) = .ok overlapR ∧ StridesInRange 1 2 1 2 (0, 1, 0) ∧
      createCuda false .host (fun _ => 0) overlapR = .ok ⟨overlapR, 2, none⟩ ∧
      ∃ L, applyCuda ⟨overlapR, 2, none⟩ .plain .transpose overlapU (zeroV 2) = .ok L ∧
        scatterG (stridedDataG 1 2 1 (0, 1, 0)) overlapU.val 0 = 12 ∧
        (∃ c, Reach L.G L.B L.cfg c ∧ Race L.G L.B c) ∧
        ∃ c, Reach L.G L.B L.cfg c ∧ Final L.G L.B c ∧ c.mem.val .v 0 = 7 := by
  refine ⟨rfl, ?_, rfl, launchOf (applyCuda ⟨overlapR, 2, none⟩ .plain .transpose overlapU (zeroV 2)),
    launchOf_eq (by decide +kernel), by decide +kernel,
    evalSched_bad (l₁ := [0, 0, 1, 1]) (l₂ := [0, 1]) (t := 0) (t' := 1) (i := 0) (by decide +kernel)⟩
  intro e he m hm k hk
  have hk : k = 0 := by omega
  subst hk
  simp

/-! ### Deterministic transpose with overlapping components -/

/-- Offsets of two nodes with two components one entry apart: entries 0, 1 and 1, 2. -/
def stepOffsets : Buf Int := ⟨2, fun i => (i : Int)⟩

/-- The restriction and what the deterministic backend prepares. -/
def stepX : Res CRstr := do
  let r ← create false 1 2 2 1 3 stepOffsets .none
  createCuda true .host (fun _ => 0) r

/-- The launch of its transpose. -/
def stepL : Res (Launch Int) := do
  let x ← stepX
  applyCuda x .plain .transpose ⟨4, fun i => (i : Int) + 1⟩ (zeroV 3)

/-- The deterministic E-vector to L-vector kernels use one thread per L-vector node and add without atomics
(`cuda-ref-restriction-offset.h` 64). When components of different nodes share an entry, which the offsets and component
stride allow, two threads race, and a schedule loses a contribution: entry 1 ends as 2 (node 1, component 0), or as 3
(node 0, component 1) but should be 5. -/
theorem C61_deterministic_overlap_witness :
    OffsetsInRange 1 2 2 1 3 stepOffsets ∧ ∃ L, stepL = .ok L ∧
      scatterG (offsetData 1 2 2 1 stepOffsets .none .plain) (fun i => (i : Int) + 1) 1 = 5 ∧
      (∃ c, Reach L.G L.B L.cfg c ∧ Race L.G L.B c) ∧
      ∃ c, Reach L.G L.B L.cfg c ∧ Final L.G L.B c ∧ c.mem.val .v 1 = 2 := by
  refine ⟨?_, launchOf stepL, launchOf_eq (by decide +kernel), by decide +kernel,
    evalSched_bad (l₁ := [0, 0, 0, 0, 0, 1, 1, 1]) (l₂ := [0, 1, 1, 1]) (t := 0) (t' := 1) (i := 1) (by decide +kernel)⟩
  intro e he m hm k hk
  have he : e = 0 := by omega
  subst he
  unfold stepOffsets
  simp only
  omega

/-- A deterministic backend given offsets in device memory reads them on the host
(`ceed-cuda-ref-restriction.c` 604): undefined for every restriction with nodes. -/
theorem C61_deterministic_device_offsets_witness (junk : Nat → Int) {ne es nc : Nat} {cs lSize : Int}
    {offsets : Buf Int} {o : Orient} {r : Rstr} (h : create false ne es nc cs lSize offsets o = .ok r) (hne : 0 < ne) :
    createCuda true .device junk r = .ub := by
  have ha := offsetArgs h
  have hns : r.rtype ≠ .strided := by rw [ha.rtype]; exact o.rtype_ne.2
  have hpos : 0 < ne * es := Nat.mul_pos hne ha.es_pos
  unfold createCuda
  simp only [hns, if_false, if_true, ha.numElem, ha.elemSize, Int.toNat_natCast, hpos, and_self]

/-! ### Concrete cases -/

/-- Two segments sharing the middle node, with signs. -/
def segOffsets : Buf Int := Buf.ofList [0, 1, 1, 2]

/-- Signs of the nodes. -/
def segSigns : Buf Bool := Buf.ofList [false, true, false, false]

theorem seg_range : OffsetsInRange 2 2 1 1 3 segOffsets := by
  intro e he m hm k hk
  have : ∀ e < 2, ∀ m < 2, ∀ k < 1, 0 ≤ segOffsets.val (e * 2 + m) + (k : Nat) * (1 : Int) ∧
      segOffsets.val (e * 2 + m) + (k : Nat) * (1 : Int) < 3 := by decide +kernel
  exact this e he m hm k hk

example : ∃ r x, create false 2 2 1 1 3 segOffsets (.signs segSigns) = .ok r ∧
    createCuda true .host (fun _ => 9) r = .ok x ∧ NoOverlap 2 2 1 1 segOffsets ∧
    MadeG (α := Int) .plain x 3 (offsetData 2 2 1 1 segOffsets (.signs segSigns) .plain) := by
  obtain ⟨x, hx⟩ := C61_create (det := true) (mt := .host) (fun _ => 9)
    (h := (rfl : create false 2 2 1 1 3 segOffsets (.signs segSigns) = .ok _)) seg_range (.inr rfl)
  refine ⟨_, x, rfl, hx, ?_, .offset rfl hx seg_range⟩
  intro p _ q _ k hk k' hk' h
  have h1 : k = 0 := by omega
  have h2 : k' = 0 := by omega
  subst h1 h2
  simpa using h

/-- What the deterministic backend lists for the two segments: nodes 0, 1, 2 with E-vector positions 0; 1, 2; 3. -/
example : (offsetCuda 2 2 3 segOffsets (fun _ => 9)).bind (fun x => .ok (x.1, x.2.1.toList, x.2.2.1.toList,
    x.2.2.2.toList)) = .ok (3, [0, 1, 2], [0, 1, 2, 3], [0, 1, 3, 4]) := by decide +kernel

/-- Threads of one block, one schedule: gather of the two segments. -/
example : (match (do
      let r ← create false 2 2 1 1 3 segOffsets (.signs segSigns)
      let x ← createCuda false .host (fun _ => 9) r
      applyCuda x .plain .noTranspose ⟨3, fun i => (i : Int) + 10⟩ (zeroV 4)) with
    | .ok L => (sched L.G L.B [3, 0, 1, 1, 2, 0, 2, 3] L.cfg).map fun c => (List.range 4).map (c.mem.val .v)
    | _ => none) = some [10, -11, 11, 12] := by decide +kernel

example : StridesApart 2 2 1 (1, 1, 2) := by
  intro e he m hm k hk e' he' m' hm' k' hk' h
  simp only at h
  omega

end Verif.Gpu
