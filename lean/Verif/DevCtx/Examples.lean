import Verif.DevCtx.Main

/-!
# Contexts on the host and on the device: histories and disagreements
-/

namespace Verif
namespace DevCtx

open Vector (Mem Mode)

/-- The world after a call. -/
def after (w : W Nat) (c : Call Nat) : W Nat :=
  match exec c w with
  | .ok w' _ => w'
  | .err w' _ => w'
  | .ub => w

theorem reach_after {w : W Nat} {c : Call Nat} (hr : Reach w) (hl : Legal w c) : Reach (after w c) := by
  unfold after
  cases h : exec c w with
  | ok w' p => exact .step hr hl (.ok h)
  | err w' e => exact .step hr hl (.err h)
  | ub => exact absurd h (C76_defined_partial hr hl)

/-- Successful calls one after another. -/
def runOk : List (Call Nat) → W Nat → Option (W Nat)
  | [], w => some w
  | c :: cs, w =>
    match exec c w with
    | .ok w' _ => runOk cs w'
    | _ => none

/-- Bytes counted from `k`. -/
def bytes (n k : Nat) : Buf Nat := ⟨n, fun i => k + i⟩

/-- A program with an array of two bytes on the host. -/
def e1 : W Nat := after W.init (.malloc .host (bytes 2 5))
/-- It lends the array to the context. -/
def e2 : W Nat := after e1 (.setData .host .usePointer 2 0)
/-- It gets access for writing on the device. -/
def e3 : W Nat := after e2 (.getData .device)
/-- A kernel writes. -/
def e4 : W Nat := after e3 (.store 1 0 9)
/-- Access is given back. -/
def e5 : W Nat := after e4 .restoreData
/-- The array is taken back. -/
def e6 : W Nat := after e5 (.takeData .host)

theorem reach1 : Reach e1 := reach_after .init trivial
theorem legal2 : Legal e1 (.setData .host .usePointer 2 0) :=
  ⟨_, _, rfl, rfl, rfl, Nat.le_refl _, rfl, (fun _ ⟨x, m, h1, h2⟩ => by
    cases h1
    rcases h2 with h2 | h2 <;> cases h2), fun h => absurd rfl h, fun h => (by cases h), fun c d h => (by
    rcases h with h | h <;> cases h)⟩
theorem reach2 : Reach e2 := reach_after reach1 legal2
theorem reach3 : Reach e3 := reach_after reach2 ⟨_, rfl⟩
theorem legal4 : Legal e3 (.store 1 0 9) :=
  ⟨_, rfl, by decide, Or.inr ⟨_, .device, rfl, rfl, rfl⟩⟩
theorem reach4 : Reach e4 := reach_after reach3 legal4
theorem reach5 : Reach e5 := reach_after reach4 ⟨_, rfl⟩
theorem reach6 : Reach e6 := reach_after reach5 ⟨_, rfl⟩

/-- The hypotheses of the theorems of C76 are met in a history with a copy in each memory: the value written on the device is
found in the array that the program takes back on the host. -/
example : exec (.takeData .host) e5 = .ok e6 (some 0) ∧ (e6.heap 0).map (fun b => (b.mem, b.buf.val 0, b.buf.val 1)) =
    some (.host, 9, 6) := ⟨rfl, rfl⟩

/-- `C76_documented_partial` for the access for writing on the device. -/
example : Doc e2 e3 (some 1) (.getData .device) := C76_documented_partial reach2 ⟨_, rfl⟩ rfl

/-- `C76_exclusive_partial`, with the copy on the device. -/
example : ∃ x, e3.ctx = some x ∧ x.state % 2 = 1 ∧ (x.side .host).arr = none ∧ (x.side .device).arr = some 1 :=
  ⟨_, rfl, rfl, rfl, rfl⟩

/-- `C76_failed_partial`: access for writing is not granted twice. -/
example : exec (.getData .host) e3 = .err e3 .minor ∧ Keeps e3 e3 :=
  ⟨rfl, C76_failed_partial reach3 (c := .getData .host) ⟨_, rfl⟩ rfl⟩

/-- `C76_reading_partial`: a field cannot be changed while the data is read on the device. -/
example : ∃ x, (after e5 (.getDataRead .device)).ctx = some x ∧ 0 < x.readers ∧ (x.side .device).arr = some 1 ∧
    ∃ w', exec (.setField 0 (bytes 1 7)) (after e5 (.getDataRead .device)) = .err w' .minor :=
  ⟨_, rfl, by decide, rfl, _, rfl⟩

/-- `C76_no_leak_partial`: the array lent stays, the copy on the device is freed. -/
example : (after e6 .destroy).ctx = none ∧ (after e6 .destroy).heap 1 = none ∧ ((after e6 .destroy).heap 0).isSome :=
  ⟨rfl, rfl, rfl⟩

/-- **C76** is false for data that becomes longer: a context of one byte is read on the device, then gets new data of two bytes
on the host. The array on the device is still the one of one byte, so the next access on the device copies two bytes to it. -/
theorem C76_resize_witness : ∃ w, runOk [.malloc .host (bytes 1 5), .setData .host .copyValues 1 0, .getDataRead .device,
    .restoreDataRead, .malloc .host (bytes 2 8), .setData .host .copyValues 2 3] W.init = some w ∧
    exec (.getDataRead .device) w = .ub := ⟨_, rfl, rfl⟩

/-- **C76** is false for an array lent before: the program lends an array of one byte on the device, then sets new data of two
bytes on the host. The array it has lent is overrun by the next access on the device. -/
theorem C76_resize_lent_witness : ∃ w, runOk [.malloc .device (bytes 1 5), .setData .device .usePointer 1 0,
    .malloc .host (bytes 2 8), .setData .host .copyValues 2 1] W.init = some w ∧
    exec (.getDataRead .device) w = .ub := ⟨_, rfl, rfl⟩

/-- **C76**: the array lent is also written to after the program has set other data, which it does not expect: the new values
are copied to the array that was lent for the data set before. -/
theorem C76_overwritten_witness : ∃ w w' p, runOk [.malloc .device (bytes 2 5), .setData .device .usePointer 2 0,
    .malloc .host (bytes 2 8), .setData .host .copyValues 2 1] W.init = some w ∧
    (w.heap 0).map (fun b => b.buf.val 0) = some 5 ∧ exec (.getDataRead .device) w = .ok w' p ∧
    (w'.heap 0).map (fun b => b.buf.val 0) = some 8 := ⟨_, _, _, rfl, rfl, rfl, rfl⟩

/-- New data is accepted while the old data is read: the array that is read is freed. -/
theorem C76_dangling_witness : ∃ w w' x, runOk [.malloc .host (bytes 1 5), .setData .host .copyValues 1 0] W.init = some w ∧
    exec (.getDataRead .host) w = .ok w' (some 1) ∧ ∃ w'' p, exec (.setData .host .copyValues 1 0) w' = .ok w'' p ∧
    w''.ctx = some x ∧ x.readers = 1 ∧ w''.heap 1 = none := ⟨_, _, _, rfl, rfl, _, _, rfl, rfl, rfl, rfl⟩

/-- A context with a data destroy function and without data cannot be destroyed, and cannot get data. -/
theorem C76_undestroyed_witness : ∃ w, runOk [.setDestroy .host, .malloc .host (bytes 1 5)] W.init = some w ∧
    exec .destroy w = .err w .backend ∧ exec (.setData .host .copyValues 1 0) w = .err w .backend := ⟨_, rfl, rfl, rfl⟩

end DevCtx
end Verif
