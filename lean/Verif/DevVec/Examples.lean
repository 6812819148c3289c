import Verif.DevVec.Props

/-!
# C63: concrete histories, and where the code does not keep its promises
-/

set_option linter.unusedSectionVars false

namespace Verif
namespace DevVec

open Vector (Mem Mode NormType)

variable {α : Type} [CommRing α] [DecidableEq α] {E : Env α}

/-- `HeldBy`, decided. -/
def heldByB (w : W α) (u a : Nat) : Bool :=
  match w.vecs u with
  | some x => [Mem.host, Mem.device].any fun m => decide ((x.side m).own = some a) || decide ((x.side m).bor = some a)
  | none => false

theorem heldByB_of {w : W α} {u a : Nat} (h : HeldBy w u a) : heldByB w u a = true := by
  obtain ⟨x, m, hx, ho⟩ := h
  unfold heldByB
  rw [hx]
  cases m <;> rcases ho with h | h <;> simp [h]

/-- The vector exists. -/
def isB (w : W α) (u : Nat) : Bool := (w.vecs u).isSome

theorem is_of {w : W α} {u : Nat} (h : isB w u = true) : Is w u := Option.isSome_iff_exists.1 h

/-- Sufficient for `Legal` if all vectors are numbered below `K`. -/
def legalB (E : Env α) (K : Nat) (w : W α) : Call α → Bool
  | .create v _ => decide (v < K) && !isB w v
  | .destroy v | .takeArray v _ | .getArray v _ | .getArrayRead v _ | .getArrayWrite v _ | .restoreArray v | .restoreArrayRead v
  | .syncArray v _ | .setValue v _ | .norm v _ | .scale v _ | .reciprocal v => isB w v
  | .setArray v _ _ none => isB w v
  | .setArray v m mode (some a) =>
    match w.vecs v, w.heap a with
    | some x, some b => decide (b.mem = m) && decide (x.len ≤ b.buf.len) &&
        (if mode = .copyValues then !heldByB w v a else (List.range K).all fun u => !heldByB w u a)
    | _, _ => false
  | .setValueStrided v start _ step _ => isB w v && decide (0 ≤ start) && decide (0 < step)
  | .axpy y _ x | .axpby y _ _ x | .copy x y => isB w y && isB w x
  | .copyStrided x _ _ step y => isB w y && isB w x && decide (x ≠ y) && decide (0 < step) && (!E.blas64 || decide (step = 1))
  | .pointwiseMult u x y => isB w u && isB w x && isB w y
  | .malloc _ _ => true
  | .mfree a => (w.heap a).isSome && (List.range K).all fun u => !heldByB w u a
  | .store a i _ =>
    match w.heap a with
    | some b => decide (i < b.buf.len) && (((List.range K).all fun u => !heldByB w u a) ||
        (List.range K).any fun u => match w.vecs u with
          | some x => decide (x.state % 2 = 1) && [Mem.host, Mem.device].any fun m => decide ((x.side m).arr = some a)
          | none => false)
    | none => false

theorem not_held_of {K : Nat} {w : W α} (hK : ∀ u, K ≤ u → w.vecs u = none) {a : Nat} (h : ((List.range K).all fun u => !heldByB w u a) = true) : ¬ Held w a := by
  rintro ⟨u, hu⟩
  by_cases huK : u < K
  · have h1 := List.all_eq_true.1 h u (List.mem_range.2 huK)
    rw [heldByB_of hu] at h1
    cases h1
  · obtain ⟨x, m, hx, -⟩ := hu
    rw [hK u (by omega)] at hx
    cases hx

theorem legal_of {K : Nat} {w : W α} (hK : ∀ u, K ≤ u → w.vecs u = none) {c : Call α} (h : legalB E K w c = true) : Legal E w c := by
  cases c with
  | create v n =>
    simp only [legalB, Bool.and_eq_true, isB, Bool.not_eq_true', decide_eq_true_eq] at h
    exact Option.isSome_eq_false_iff.1 h.2 |> Option.isNone_iff_eq_none.1
  | setArray v m mode src =>
    cases src with
    | none => exact is_of h
    | some a =>
      simp only [legalB] at h
      split at h
      · rename_i x b hx hb
        simp only [Bool.and_eq_true, decide_eq_true_eq] at h
        refine ⟨x, b, hx, hb, h.1.1, h.1.2, fun hm hh => ?_, fun hm u hu => ?_⟩
        · have h2 := h.2
          rw [if_pos hm, heldByB_of hh] at h2
          cases h2
        · have h2 := h.2
          rw [if_neg hm] at h2
          exact absurd ⟨u, hu⟩ (not_held_of hK h2)
      · cases h
  | setValueStrided v start stop step z =>
    simp only [legalB, Bool.and_eq_true, decide_eq_true_eq] at h
    exact ⟨is_of h.1.1, h.1.2, h.2⟩
  | axpy y k x | axpby y k l x | copy x y =>
    simp only [legalB, Bool.and_eq_true] at h
    exact ⟨is_of h.1, is_of h.2⟩
  | copyStrided x start stop step y =>
    simp only [legalB, Bool.and_eq_true, Bool.or_eq_true, Bool.not_eq_true', decide_eq_true_eq] at h
    refine ⟨is_of h.1.1.1.1, is_of h.1.1.1.2, h.1.1.2, h.1.2, fun hb => h.2.resolve_left fun h' => ?_⟩
    rw [hb] at h'
    cases h'
  | pointwiseMult u x y =>
    simp only [legalB, Bool.and_eq_true] at h
    exact ⟨is_of h.1.1, is_of h.1.2, is_of h.2⟩
  | malloc m n => trivial
  | mfree a =>
    simp only [legalB, Bool.and_eq_true] at h
    exact ⟨Option.isSome_iff_exists.1 h.1, not_held_of hK h.2⟩
  | store a i z =>
    simp only [legalB] at h
    split at h
    · rename_i b hb
      simp only [Bool.and_eq_true, Bool.or_eq_true, decide_eq_true_eq] at h
      refine ⟨b, hb, h.1, h.2.imp (not_held_of hK) fun h' => ?_⟩
      obtain ⟨u, -, hu⟩ := List.any_eq_true.1 h'
      split at hu
      · rename_i x hx
        simp only [Bool.and_eq_true, decide_eq_true_eq] at hu
        obtain ⟨m, -, hm⟩ := List.any_eq_true.1 hu.2
        exact ⟨u, x, m, hx, hu.1, of_decide_eq_true hm⟩
      · cases hu
    · cases h
  | _ => exact is_of h

/-- Run calls that are legal. -/
def run (E : Env α) (K : Nat) : List (Call α) → W α → Option (W α)
  | [], w => some w
  | c :: cs, w => if legalB E K w c = true then
      match exec E c w with
      | .ok w' _ => run E K cs w'
      | .err w' _ => run E K cs w'
      | .ub => none
    else none

theorem step_low {K : Nat} {w w' : W α} (hi : Inv w) (hK : ∀ u, K ≤ u → w.vecs u = none) {c : Call α}
    (hE : ∀ v, c = .reciprocal v → E.big .host = E.big .device) (h : legalB E K w c = true) (hs : Step E w c w') : Inv w' ∧ ∀ u, K ≤ u → w'.vecs u = none := by
  have hl := legal_of hK h
  have hq := exec_wp' hi hE hl
  refine ⟨?_, fun u hu => ?_⟩
  · cases hs with
    | ok h => exact (M.wp_ok hq h).inv
    | err h => exact (M.wp_err hq h).inv
  have hA : ¬ Args c u := by
    intro ha
    have hno : ¬ Is w u := fun ⟨x, hx⟩ => by rw [hK u hu] at hx; cases hx
    cases c with
    | create v n =>
      simp only [legalB, Bool.and_eq_true, decide_eq_true_eq] at h
      have : u = v := ha
      omega
    | setArray v m mode src =>
      have : u = v := ha
      subst this
      cases src with
      | none => exact hno hl
      | some a =>
        obtain ⟨x, b, hx, -⟩ := hl
        exact hno ⟨x, hx⟩
    | malloc m n => exact ha
    | mfree a => exact ha
    | store a i z => exact ha
    | setValueStrided v start stop step z =>
      have : u = v := ha
      subst this
      exact hno hl.1
    | axpy y k x => rcases ha with rfl | rfl; exacts [hno hl.1, hno hl.2]
    | axpby y k l x => rcases ha with rfl | rfl; exacts [hno hl.1, hno hl.2]
    | copy x y => rcases ha with rfl | rfl; exacts [hno hl.2, hno hl.1]
    | copyStrided x start stop step y => rcases ha with rfl | rfl; exacts [hno hl.2.1, hno hl.1]
    | pointwiseMult v x y => rcases ha with rfl | rfl | rfl; exacts [hno hl.1, hno hl.2.1, hno hl.2.2]
    | destroy v | takeArray v m | getArray v m | getArrayRead v m | getArrayWrite v m | restoreArray v | restoreArrayRead v | syncArray v m | setValue v z | norm v ty
    | scale v k | reciprocal v =>
      have : u = v := ha
      subst this
      exact hno hl
  cases hs with
  | ok h => exact ((M.wp_ok hq h).vecs u hA).trans (hK u hu)
  | err h => exact ((M.wp_err hq h).rel.vecs u hA).trans (hK u hu)

theorem run_inv {K : Nat} : ∀ (cs : List (Call α)) (_ : ∀ c ∈ cs, ∀ v, c = .reciprocal v → E.big .host = E.big .device) {w w' : W α}, Inv w → Reach E w →
    (∀ u, K ≤ u → w.vecs u = none) → run E K cs w = some w' → Inv w' ∧ Reach E w' ∧ ∀ u, K ≤ u → w'.vecs u = none
  | [], _, w, w', hi, hr, hK, h => by cases h; exact ⟨hi, hr, hK⟩
  | c :: cs, hE, w, w', hi, hr, hK, h => by
    unfold run at h
    have hE' := fun d hd => hE d (List.mem_cons_of_mem c hd)
    by_cases hl : legalB E K w c = true
    · rw [if_pos hl] at h
      split at h
      · rename_i w1 r h1
        have hs := step_low hi hK (hE c List.mem_cons_self) hl (.ok h1)
        exact run_inv cs hE' hs.1 (.step hr (legal_of hK hl) (.ok h1)) hs.2 h
      · rename_i w1 e h1
        have hs := step_low hi hK (hE c List.mem_cons_self) hl (.err h1)
        exact run_inv cs hE' hs.1 (.step hr (legal_of hK hl) (.err h1)) hs.2 h
      · cases h
    · rw [if_neg hl] at h
      cases h

/-- Worlds that `run` leads to are reachable. -/
theorem run_reach {K : Nat} {cs : List (Call α)} (hE : ∀ c ∈ cs, ∀ v, c = .reciprocal v → E.big .host = E.big .device) {w : W α} (h : run E K cs W.init = some w) : Reach E w :=
  (run_inv cs hE .init .init (fun _ _ => rfl) h).2.1

/-- A property of the world that a run leads to, decided. -/
theorem run_ex {K : Nat} {cs : List (Call α)} (hE : ∀ c ∈ cs, ∀ v, c = .reciprocal v → E.big .host = E.big .device) {P : W α → Bool}
    (h : ((run E K cs W.init).map P) = some true) : ∃ w, Reach E w ∧ P w = true := by
  obtain ⟨w, hw, hP⟩ := Option.map_eq_some_iff.1 h
  exact ⟨w, run_reach hE hw, hP⟩

/-- Integers; reciprocals are minus the number so that they show; norms are sums. -/
def exE (big : Mem → Int → Bool) (b64 : Bool) : Env Int := ⟨fun z => -z, big, fun _ n f => ((List.range n).map f).sum, fun _ _ => 77, b64⟩

def E0 : Env Int := exE (fun _ z => decide (z ≠ 0)) false

theorem E0_ok : E0.big .host = E0.big .device := rfl

/-- The first entries of an array. -/
def show' (w : W Int) (a n : Nat) : Option (List Int) := (w.heap a).map fun b => (List.range n).map b.buf.val

/-- What one can see of a vector. -/
structure Seen where
  host : Option (List Int)
  device : Option (List Int)
  state : Nat
  readers : Nat
  deriving DecidableEq

/-- Which memory has a valid array, and what is in it. -/
def look' (w : W Int) (v : Nat) : Option Seen :=
  (w.vecs v).map fun x => ⟨(x.side .host).arr.bind fun a => show' w a x.len, (x.side .device).arr.bind fun a => show' w a x.len, x.state, x.readers⟩

/-- A vector with the values 5, 6, 7 of a host array 0 of the program, which is lent; values brought to the device, and scaled there. -/
def prog1 : List (Call Int) :=
  [.malloc .host 3, .store 0 0 5, .store 0 1 6, .store 0 2 7, .create 0 3, .setArray 0 .host .usePointer (some 0), .getArrayRead 0 .device, .restoreArrayRead 0, .scale 0 10]

/-- The device has the current values, the lent array does not, until it is taken back. -/
example : ((run E0 4 prog1 W.init).map fun w => (look' w 0, show' w 0 3)) = some (some ⟨none, some [50, 60, 70], 2, 0⟩, some [5, 6, 7]) := by decide +kernel

example : ((run E0 4 (prog1 ++ [.takeArray 0 .host]) W.init).map fun w => (look' w 0, show' w 0 3)) = some (some ⟨none, some [50, 60, 70], 2, 0⟩, some [50, 60, 70]) := by decide +kernel

/-- The state that `prog1` leads to is reachable: the hypotheses of the theorems can be met. -/
example : ∃ w, Reach E0 w ∧ Len w 0 3 ∧ Lent w 0 .host 0 ∧ Legal E0 w (.takeArray 0 .host) ∧ HasVals w 0 (fun i => 10 * (5 + (i : Int))) := by
  obtain ⟨w, hw⟩ := Option.isSome_iff_exists.1 (show (run E0 4 prog1 W.init).isSome = true by decide +kernel)
  have hr := run_reach (fun _ _ _ _ => E0_ok) hw
  have h1 : ((run E0 4 prog1 W.init).bind fun w => (w.vecs 0).map fun x => (x.len, (x.side .host).arr, (x.side .host).bor, (x.side .device).arr)) =
      some (3, none, some 0, some 1) := by decide +kernel
  have h2 : ((run E0 4 prog1 W.init).bind fun w => (w.heap 1).map fun b => (b.mem, b.buf.len, decide (∀ i : Nat, i < 3 → b.buf.val i = 10 * (5 + (i : Int))))) = some (.device, 3, true) := by
    decide +kernel
  rw [hw, Option.bind_some] at h1 h2
  obtain ⟨x, hx, hxe⟩ := Option.map_eq_some_iff.1 h1
  obtain ⟨b, hb, hbe⟩ := Option.map_eq_some_iff.1 h2
  simp only [Prod.mk.injEq, decide_eq_true_eq] at hxe hbe
  obtain ⟨hl, h3, h4, h5⟩ := hxe
  refine ⟨w, hr, ⟨x, hx, hl⟩, ⟨x, hx, h4⟩, ⟨x, hx⟩, x, hx, ⟨.device, by rw [h5]; simp⟩, fun m a ha => ?_⟩
  cases m with
  | host => rw [h3] at ha; cases ha
  | device =>
    rw [h5] at ha
    cases ha
    exact ⟨b, hb, hbe.1, by rw [hl, hbe.2.1], fun i hi => hbe.2.2 i (hl ▸ hi)⟩

/-- Access for writing to the device array of a vector with values on the host, a store, and a read on the host. -/
example : ((run E0 4 (prog1 ++ [.getArray 0 .host, .store 0 1 8, .restoreArray 0, .getArrayRead 0 .device]) W.init).map fun w => look' w 0) =
    some (some ⟨some [50, 8, 70], some [50, 8, 70], 4, 1⟩) := by decide +kernel

/-- Two vectors: `y = 2 x + y`, products, strided copies. -/
def prog2 : List (Call Int) :=
  prog1 ++ [.create 1 3, .setValue 1 1, .axpy 1 2 0, .create 2 3, .pointwiseMult 2 0 1, .copyStrided 0 1 3 1 1, .reciprocal 0, .norm 2 .one]

example : ((run E0 4 prog2 W.init).map fun w => (look' w 0, look' w 1, look' w 2)) =
    some (some ⟨none, some [-50, -60, -70], 2, 0⟩, some ⟨none, some [101, 60, 70], 8, 0⟩, some ⟨none, some [5050, 7260, 9870], 4, 0⟩) := by decide +kernel

/-- The outcome of a call. -/
inductive Outcome
  | ok
  | err (e : Err)
  | ub
  deriving DecidableEq

def outcome (E : Env Int) (c : Call Int) (w : W Int) : Outcome :=
  match exec E c w with
  | .ok _ _ => .ok
  | .err _ e => .err e
  | .ub => .ub

/-- What is there after a call, whether it succeeds or not. -/
def after (E : Env Int) (c : Call Int) (w : W Int) : Option (W Int) :=
  match exec E c w with
  | .ok w' _ => some w'
  | .err w' _ => some w'
  | .ub => none

/-- The 64-bit interface of cuBLAS. -/
def E1 : Env Int := exE (fun _ z => decide (z ≠ 0)) true

theorem E1_ok : E1.big .host = E1.big .device := rfl

/-- Vectors of eight entries, 1 and 5. -/
def prog3 : List (Call Int) := [.create 0 8, .setValue 0 1, .create 1 8, .setValue 1 5]

/-- `CeedVectorCopyStrided` with a step above one, on CUDA 12 or later: `CeedVectorCopyStrided_Cuda` passes the length of the window to cuBLAS
as the number of entries to copy (`ceed-cuda-ref-vector.c` 253-271), so that a window of two entries, of which one is to be copied, changes
two. -/
theorem C63_copy_strided_witness : ∃ w, Reach E1 w ∧ ((look' w 1).bind (·.device) = some [5, 5, 5, 5, 5, 5, 5, 5]) ∧
    (after E1 (.copyStrided 0 0 2 2 1) w).bind (fun w' => (look' w' 1).bind (·.device)) = some [1, 5, 1, 5, 5, 5, 5, 5] := by
  obtain ⟨w, hr, h⟩ := run_ex (E := E1) (K := 4) (cs := prog3) (fun _ _ _ _ => E1_ok)
    (P := fun w => decide ((look' w 1).bind (·.device) = some [5, 5, 5, 5, 5, 5, 5, 5]) && decide ((after E1 (.copyStrided 0 0 2 2 1) w).bind (fun w' => (look' w' 1).bind (·.device)) =
      some [1, 5, 1, 5, 5, 5, 5, 5])) (by decide +kernel)
  simp only [Bool.and_eq_true, decide_eq_true_eq] at h
  exact ⟨w, hr, h⟩

/-- The same, with the whole vector as the window: the copy leaves the arrays. -/
theorem C63_copy_strided_bounds_witness : ∃ w, Reach E1 w ∧ Is w 0 ∧ Is w 1 ∧ exec E1 (.copyStrided 0 0 (-1) 2 1) w = .ub := by
  obtain ⟨w, hr, h⟩ := run_ex (E := E1) (K := 4) (cs := prog3) (fun _ _ _ _ => E1_ok)
    (P := fun w => isB w 0 && isB w 1 && decide (outcome E1 (.copyStrided 0 0 (-1) 2 1) w = .ub)) (by decide +kernel)
  simp only [Bool.and_eq_true, decide_eq_true_eq] at h
  refine ⟨w, hr, is_of h.1.1, is_of h.1.2, ?_⟩
  have := h.2
  unfold outcome at this
  split at this
  · cases this
  · cases this
  · assumption

/-- `CeedVectorSetValueStrided` does not check where the window starts. -/
theorem C63_set_value_strided_witness : ∃ w, Reach E0 w ∧ Is w 0 ∧ exec E0 (.setValueStrided 0 (-1) 2 1 9) w = .ub := by
  obtain ⟨w, hr, h⟩ := run_ex (E := E0) (K := 4) (cs := prog3) (fun _ _ _ _ => E0_ok)
    (P := fun w => isB w 0 && decide (outcome E0 (.setValueStrided 0 (-1) 2 1 9) w = .ub)) (by decide +kernel)
  simp only [Bool.and_eq_true, decide_eq_true_eq] at h
  refine ⟨w, hr, is_of h.1, ?_⟩
  have := h.2
  unfold outcome at this
  split at this
  · cases this
  · cases this
  · assumption

/-- `CeedVectorSetValueStrided` fails for a vector of length zero, to which `CeedVectorSetValue` may be applied. -/
theorem C63_set_value_strided_empty_witness : ∃ w, Reach E0 w ∧ Len w 0 0 ∧ outcome E0 (.setValueStrided 0 0 (-1) 1 9) w = .err .backend ∧
    outcome E0 (.setValue 0 9) w = .ok := by
  obtain ⟨w, hr, h⟩ := run_ex (E := E0) (K := 4) (cs := [.create 0 0]) (fun _ _ _ _ => E0_ok)
    (P := fun w => decide ((w.vecs 0).map (·.len) = some 0) && decide (outcome E0 (.setValueStrided 0 0 (-1) 1 9) w = .err .backend) && decide (outcome E0 (.setValue 0 9) w = .ok))
    (by decide +kernel)
  simp only [Bool.and_eq_true, decide_eq_true_eq] at h
  obtain ⟨x, hx, hl⟩ := Option.map_eq_some_iff.1 h.1.1
  exact ⟨w, hr, ⟨x, hx, hl⟩, h.1.2, h.2⟩

/-- A reader has the host array 0 with the values 5, 6, 7. -/
def prog4 : List (Call Int) :=
  [.malloc .host 3, .store 0 0 5, .store 0 1 6, .store 0 2 7, .create 0 3, .setArray 0 .host .usePointer (some 0), .syncArray 0 .device, .getArrayRead 0 .host]

/-- `CeedVectorScale` succeeds while access for reading is granted, and does not change the state of the vector: the reader's array is no longer
the vector, and neither the lock nor the state tells. -/
theorem C63_reader_witness : ∃ w, Reach E0 w ∧ look' w 0 = some ⟨some [5, 6, 7], some [5, 6, 7], 2, 1⟩ ∧ show' w 0 3 = some [5, 6, 7] ∧
    outcome E0 (.scale 0 10) w = .ok ∧
    (after E0 (.scale 0 10) w).map (fun w' => (look' w' 0, show' w' 0 3)) = some (some ⟨none, some [50, 60, 70], 2, 1⟩, some [5, 6, 7]) := by
  obtain ⟨w, hr, h⟩ := run_ex (E := E0) (K := 4) (cs := prog4) (fun _ _ _ _ => E0_ok)
    (P := fun w => decide (look' w 0 = some ⟨some [5, 6, 7], some [5, 6, 7], 2, 1⟩) && decide (show' w 0 3 = some [5, 6, 7]) && decide (outcome E0 (.scale 0 10) w = .ok) &&
      decide ((after E0 (.scale 0 10) w).map (fun w' => (look' w' 0, show' w' 0 3)) = some (some ⟨none, some [50, 60, 70], 2, 1⟩, some [5, 6, 7]))) (by decide +kernel)
  simp only [Bool.and_eq_true, decide_eq_true_eq] at h
  exact ⟨w, hr, h.1.1.1, h.1.1.2, h.1.2, h.2⟩

/-- Entries of which only the device thinks that they are not zero, as 1e-10 in single precision. -/
def E2 : Env Int := exE (fun m z => match m with | .host => decide (5 < z) | .device => decide (z ≠ 0)) false

/-- In single precision, `CeedVectorReciprocal` leaves two valid arrays with different values: the host compares to `CEED_EPSILON` (6e-08), the
device to 1e-16. -/
theorem C63_reciprocal_witness : ∃ w, Reach E2 w ∧ look' w 0 = some ⟨some [5, 6, 7], some [5, 6, 7], 2, 1⟩ ∧
    (after E2 (.reciprocal 0) w).map (fun w' => look' w' 0) = some (some ⟨some [5, -6, -7], some [-5, -6, -7], 2, 1⟩) := by
  obtain ⟨w, hr, h⟩ := run_ex (E := E2) (K := 4) (cs := prog4) (fun c hc v hv => by subst hv; simp [prog4] at hc)
    (P := fun w => decide (look' w 0 = some ⟨some [5, 6, 7], some [5, 6, 7], 2, 1⟩) &&
      decide ((after E2 (.reciprocal 0) w).map (fun w' => look' w' 0) = some (some ⟨some [5, -6, -7], some [-5, -6, -7], 2, 1⟩))) (by decide +kernel)
  simp only [Bool.and_eq_true, decide_eq_true_eq] at h
  exact ⟨w, hr, h⟩

/-- `CeedVectorCopy` of a vector to itself fails and leaves the vector locked. -/
theorem C63_copy_locked_witness : ∃ w, Reach E0 w ∧ outcome E0 (.getArrayRead 0 .host) w = .ok ∧ outcome E0 (.copy 0 0) w = .err .access ∧
    (after E0 (.copy 0 0) w).map (outcome E0 (.getArrayRead 0 .host)) = some (.err .access) := by
  obtain ⟨w, hr, h⟩ := run_ex (E := E0) (K := 4) (cs := prog3) (fun _ _ _ _ => E0_ok)
    (P := fun w => decide (outcome E0 (.getArrayRead 0 .host) w = .ok) && decide (outcome E0 (.copy 0 0) w = .err .access) &&
      decide ((after E0 (.copy 0 0) w).map (outcome E0 (.getArrayRead 0 .host)) = some (.err .access))) (by decide +kernel)
  simp only [Bool.and_eq_true, decide_eq_true_eq] at h
  exact ⟨w, hr, h.1.1, h.1.2, h.2⟩

/-- `CeedVectorPointwiseMult` that fails because a factor is locked has set the result to zero if it had no values. -/
theorem C63_mult_failed_witness : ∃ w, Reach E0 w ∧ look' w 2 = some ⟨none, none, 0, 0⟩ ∧ outcome E0 (.pointwiseMult 2 0 1) w = .err .access ∧
    (after E0 (.pointwiseMult 2 0 1) w).map (fun w' => look' w' 2) = some (some ⟨none, some [0, 0, 0, 0, 0, 0, 0, 0], 4, 0⟩) := by
  obtain ⟨w, hr, h⟩ := run_ex (E := E0) (K := 4) (cs := prog3 ++ [.getArray 0 .host, .create 2 8]) (fun _ _ _ _ => E0_ok)
    (P := fun w => decide (look' w 2 = some ⟨none, none, 0, 0⟩) && decide (outcome E0 (.pointwiseMult 2 0 1) w = .err .access) &&
      decide ((after E0 (.pointwiseMult 2 0 1) w).map (fun w' => look' w' 2) = some (some ⟨none, some [0, 0, 0, 0, 0, 0, 0, 0], 4, 0⟩))) (by decide +kernel)
  simp only [Bool.and_eq_true, decide_eq_true_eq] at h
  exact ⟨w, hr, h.1.1, h.1.2, h.2⟩

end DevVec
end Verif
