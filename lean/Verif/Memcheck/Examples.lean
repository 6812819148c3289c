import Verif.Memcheck.Props

/-!
# Vectors of the memcheck backend: concrete programs
-/

set_option linter.unusedSectionVars false

namespace Verif
namespace Memcheck

open Vector (Mem Mode)

def exA : Arith Int := ⟨-99, (· * ·), (· + ·), id, fun z => decide (z ≠ 0)⟩

/-- The state after a program. -/
def after (cs : List (Call Int)) : W Int :=
  cs.foldl (fun w c => match exec exA c w with | .ok w' _ => w' | .err w' _ => w' | .ub => w) W.init

def good (w : W Int) (c : Call Int) : Bool := match exec exA c w with | .ok _ _ => true | _ => false

theorem after_ok {cs : List (Call Int)} {c : Call Int} {bad : Nat → Bool} (h : Reach exA (after cs) bad) (hl : Legal (after cs) c)
    (hg : good (after cs) c = true) : Reach exA (after (cs ++ [c])) (unflag c bad) ∧ ∃ r, exec exA c (after cs) = .ok (after (cs ++ [c])) r := by
  have e : after (cs ++ [c]) = (match exec exA c (after cs) with | .ok w' _ => w' | .err w' _ => w' | .ub => after cs) := by
    unfold after
    rw [List.foldl_append]
    rfl
  cases k : exec exA c (after cs) with
  | ok w' r =>
    rw [k] at e
    rw [e]
    exact ⟨Reach.ok h hl k, r, rfl⟩
  | err w' q => unfold good at hg; rw [k] at hg; cases hg
  | ub => unfold good at hg; rw [k] at hg; cases hg

/-- A vector of length two with the values of the array 5, which is lent to it. -/
def exBase : List (Call Int) := [.create 0 2, .malloc 5 ⟨2, fun i => i + 3⟩, .setArray 0 .host .usePointer (some 5)]

theorem exBase_reach : Reach exA (after exBase) (fun _ => false) := by
  have h0 : Reach exA (after []) (fun _ => false) := Reach.init
  have h1 := (after_ok (c := .create 0 2) h0 rfl (by decide +kernel)).1
  have h2 := (after_ok (c := .malloc 5 ⟨2, fun i => i + 3⟩) h1 rfl (by decide +kernel)).1
  have h3 := (after_ok (c := .setArray 0 .host .usePointer (some 5)) h2
    ⟨_, _, rfl, rfl, by decide, fun _ ⟨v, x, hx, ha⟩ => by
      have : v = 0 := by
        by_contra hv
        have : (after (([] ++ [.create 0 2]) ++ [.malloc 5 ⟨2, fun i => i + 3⟩])).vecs v = none := if_neg hv
        rw [this] at hx
        cases hx
      subst this
      cases hx
      rcases ha with ha | ha <;> cases ha⟩ (by decide +kernel)).1
  have e : unflag (.setArray 0 .host .usePointer (some 5) : Call Int) (unflag (.malloc 5 ⟨2, fun i => i + 3⟩ : Call Int)
      (unflag (.create 0 2 : Call Int) (fun _ => false))) = (fun _ : Nat => false) := by
    funext u
    show (if u = 0 then false else false) = false
    simp
  rw [e] at h3
  exact h3

/-- The array is lent, the values are its, and the vector can be read. -/
example : lent (after exBase) 0 = some 5 ∧ (vals (after exBase) 0).map (fun f => [f 0, f 1]) = some [3, 4] ∧
    stateOf (after exBase) 0 = 2 ∧ lenOf (after exBase) 0 = 2 := by decide +kernel

/-- Legal calls of several kinds in this state. -/
example : Legal (after exBase) (.getArrayRead 0 .host) ∧ Legal (after exBase) (.takeArray 0 .host) ∧ Legal (after exBase) (.setValue 0 1) :=
  ⟨⟨_, rfl⟩, ⟨_, rfl⟩, ⟨_, rfl⟩⟩

def exRead : List (Call Int) := exBase ++ [.getArrayRead 0 .host]
def exBadRead : List (Call Int) := exRead ++ [.storeRead 0 1 8]

theorem exRead_ok : Reach exA (after exRead) (fun _ => false) ∧ ∃ r, exec exA (.getArrayRead 0 .host) (after exBase) = .ok (after exRead) r :=
  after_ok exBase_reach ⟨_, rfl⟩ (by decide +kernel)

theorem exBadRead_ok : Reach exA (after exBadRead) (fun _ => false) ∧ ∃ r, exec exA (.storeRead 0 1 8) (after exRead) = .ok (after exBadRead) r :=
  after_ok exRead_ok.1 ⟨_, rfl, by decide +kernel, by decide +kernel⟩ (by decide +kernel)

/-- A program that writes to an array it got for reading: the hypotheses of `C60_violation` hold, and the array differs. -/
example : readersOf (after exBase) 0 = 0 ∧ Reading exA 0 (after exRead) (after exBadRead) ∧ readersOf (after exBadRead) 0 = 1 ∧
    ¬ SameOn 2 (readArr (after exBadRead) 0) (readArr (after exRead) 0) := by
  refine ⟨by decide +kernel, Reading.step (c := .storeRead 0 1 8) (Reading.refl _) ⟨_, rfl, by decide +kernel, by decide +kernel⟩ (fun h => h) (Or.inl exBadRead_ok.2)
    ⟨_, rfl, by decide +kernel⟩, by decide +kernel, fun h => ?_⟩
  have : (8 : Int) = 4 := h 1 (by omega)
  omega

/-- So the error is reported. -/
example : ∃ w3, exec exA (.restoreArrayRead 0) (after exBadRead) = .err w3 .backend := by
  obtain ⟨r, e⟩ := exRead_ok.2
  refine (C60_violation exBase_reach ⟨_, rfl⟩ (by decide +kernel) rfl e (Reading.step (c := .storeRead 0 1 8) (Reading.refl _)
    ⟨_, rfl, by decide +kernel, by decide +kernel⟩ (fun h => h) (Or.inl exBadRead_ok.2) ⟨_, rfl, by decide +kernel⟩) (by decide +kernel)).2 (fun h => ?_)
  have : (8 : Int) = 4 := h 1 (by decide +kernel)
  omega

def exWrite : List (Call Int) := exBase ++ [.getArray 0 .host]

theorem exWrite_ok : Reach exA (after exWrite) (fun _ => false) :=
  (after_ok (c := .getArray 0 .host) exBase_reach ⟨_, rfl⟩ (by decide +kernel)).1

/-- Writing goes to the vector and to the lent array at the end of the access, not before. -/
example : (contents (after (exWrite ++ [.storeWrite 0 0 7])) 5).map (fun f => [f 0, f 1]) = some [3, 4] ∧
    (contents (after (exWrite ++ [.storeWrite 0 0 7, .restoreArray 0])) 5).map (fun f => [f 0, f 1]) = some [7, 4] ∧
    (vals (after (exWrite ++ [.storeWrite 0 0 7, .restoreArray 0])) 0).map (fun f => [f 0, f 1]) = some [7, 4] := by decide +kernel

/-- **C60, disagreement.** Arithmetic changes the values but not the state counter, by which users (and operators that keep
passive inputs) tell whether the values have changed. -/
theorem C60_arithmetic_state_witness : ∃ (w w' : W Int) (bad : Nat → Bool) (r : Option Nat) (f g : Nat → Int), Reach exA w bad ∧
    Legal w (.scale 0 2) ∧ exec exA (.scale 0 2) w = .ok w' r ∧ vals w 0 = some f ∧ vals w' 0 = some g ∧ 0 < lenOf w 0 ∧ f 0 ≠ g 0 ∧
    stateOf w' 0 = stateOf w 0 := by
  obtain ⟨r, e⟩ := (after_ok (c := .scale 0 2) exBase_reach ⟨_, rfl⟩ (by decide +kernel)).2
  exact ⟨_, _, _, r, _, _, exBase_reach, ⟨_, rfl⟩, e, rfl, rfl, by decide +kernel, by decide +kernel, by decide +kernel⟩

/-- **C60, disagreement.** Arithmetic is not rejected while somebody reads, and then the reader is told that they changed the array,
which they did not. -/
theorem C60_arithmetic_reading_witness : ∃ (w w' w3 : W Int) (bad : Nat → Bool) (r : Option Nat), Reach exA w bad ∧ readersOf w 0 = 1 ∧
    Legal w (.scale 0 2) ∧ exec exA (.scale 0 2) w = .ok w' r ∧ readArr w' 0 = readArr w 0 ∧
    SameOn (lenOf w 0) (readArr w 0) (vals w 0) ∧ exec exA (.restoreArrayRead 0) w' = .err w3 .backend := by
  obtain ⟨r, e⟩ := (after_ok (c := .scale 0 2) exRead_ok.1 ⟨_, rfl⟩ (by decide +kernel)).2
  exact ⟨_, _, after (exRead ++ [.scale 0 2] ++ [.restoreArrayRead 0]), _, r, exRead_ok.1, by decide +kernel, ⟨_, rfl⟩, e, rfl, fun i _ => rfl, rfl⟩

/-- **C60, disagreement.** Arithmetic is not rejected while somebody has write access either, and its result is lost when the access
ends. -/
theorem C60_arithmetic_writing_witness : ∃ (w w' w3 : W Int) (bad : Nat → Bool) (r r' : Option Nat) (f g k : Nat → Int), Reach exA w bad ∧
    stateOf w 0 % 2 = 1 ∧ exec exA (.scale 0 2) w = .ok w' r ∧ exec exA (.restoreArray 0) w' = .ok w3 r' ∧
    vals w 0 = some f ∧ vals w' 0 = some g ∧ vals w3 0 = some k ∧ g 0 = 2 * f 0 ∧ k 0 = f 0 ∧ f 0 ≠ 0 := by
  obtain ⟨h, r, e⟩ := after_ok (c := .scale 0 2) exWrite_ok ⟨_, rfl⟩ (by decide +kernel)
  obtain ⟨r', e'⟩ := (after_ok (c := .restoreArray 0) h ⟨_, rfl⟩ (by decide +kernel)).2
  exact ⟨_, _, _, _, r, r', _, _, _, exWrite_ok, by decide +kernel, e, e', rfl, rfl, rfl, by decide +kernel, by decide +kernel, by decide +kernel⟩

/-- **C60, disagreement.** After a reported violation the changed copy is kept: a later reader gets it, although the vector has new
values. -/
theorem C60_stale_witness : ∃ (w w' : W Int) (bad : Nat → Bool) (r : Option Nat) (f g : Nat → Int), Reach exA w bad ∧ readersOf w 0 = 0 ∧
    exec exA (.getArrayRead 0 .host) w = .ok w' r ∧ vals w 0 = some f ∧ readArr w' 0 = some g ∧ 0 < lenOf w 0 ∧ f 0 ≠ g 0 := by
  have h1 : Reach exA (after (exBadRead ++ [.restoreArrayRead 0]))
      (flag (.restoreArrayRead 0 : Call Int) .backend (fun _ => false)) := by
    refine Reach.err exBadRead_ok.1 (c := .restoreArrayRead 0) (k := .backend) ⟨_, rfl⟩ ?_
    rfl
  have h2 := (after_ok (c := .setValue 0 7) h1 ⟨_, rfl⟩ (by decide +kernel)).1
  obtain ⟨r, e⟩ := (after_ok (c := .getArrayRead 0 .host) h2 ⟨_, rfl⟩ (by decide +kernel)).2
  exact ⟨_, _, _, r, _, _, h2, by decide +kernel, e, rfl, rfl, by decide +kernel, by decide +kernel⟩

/-- Unlike in the reference backend, setting part of a vector without values works. -/
example : (vals (after [.create 0 3, .setValueStrided 0 1 (-1) 2 7]) 0).map (fun f => [f 0, f 1, f 2]) = some [-99, 7, -99] := by decide +kernel

/-- Two vectors: the other calls. -/
example :
    let w := after (exBase ++ [.create 1 2, .setValue 1 5, .axpy 1 2 0, .create 2 2, .pointwiseMult 2 0 1, .axpby 2 1 (-1) 0, .takeArray 0 .host])
    (vals w 1).map (fun f => [f 0, f 1]) = some [11, 13] ∧ (vals w 2).map (fun f => [f 0, f 1]) = some [-30, -48] ∧ (vals w 0).isNone ∧
      lent w 0 = none := by decide +kernel

end Memcheck
end Verif
