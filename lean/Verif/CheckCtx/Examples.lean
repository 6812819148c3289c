import Verif.CheckCtx.Main

/-!
# Contexts of the checking backend: histories and disagreements
-/

namespace Verif
namespace CheckCtx

open Vector (Mem Mode)

/-- The world after a call. -/
def after (w : W Nat) (c : Call Nat) : W Nat :=
  match exec c w with
  | .ok w' _ => w'
  | .err w' _ => w'
  | .ub => w

theorem reach_after {w : W Nat} {c : Call Nat} (hr : Reach w) (hl : Legal w c) : Reach (after w c) := by
  unfold after
  cases h : exec c w with
  | ok w' p => exact .step hr hl (.ok h)
  | err w' e => exact .step hr hl (.err h)
  | ub => exact absurd h (C77_defined_partial hr hl)

/-- Successful calls one after another. -/
def runOk : List (Call Nat) → W Nat → Option (W Nat)
  | [], w => some w
  | c :: cs, w =>
    match exec c w with
    | .ok w' _ => runOk cs w'
    | _ => none

/-- Bytes counted from `k`. -/
def bytes (n k : Nat) : Buf Nat := ⟨n, fun i => k + i⟩

/-- A program with an array of two bytes. -/
def e1 : W Nat := after W.init (.malloc (bytes 2 5))
/-- It lends the array to the context. -/
def e2 : W Nat := after e1 (.setData .host .usePointer 2 0)
/-- It gets access for writing. -/
def e3 : W Nat := after e2 (.getData .host)
/-- It writes. -/
def e4 : W Nat := after e3 (.store 2 0 9)
/-- Access is given back. -/
def e5 : W Nat := after e4 .restoreData
/-- It gets access for reading. -/
def e6 : W Nat := after e5 (.getDataRead .host)
/-- It writes to what it should only read. -/
def e7 : W Nat := after e6 (.store 3 1 4)

theorem reach1 : Reach e1 := reach_after .init trivial
theorem legal2 : Legal e1 (.setData .host .usePointer 2 0) :=
  ⟨_, _, rfl, rfl, rfl, rfl, Nat.le_refl _, rfl, (fun _ ⟨x, m, h1, h2⟩ => by
    cases h1
    cases h2)⟩
theorem reach2 : Reach e2 := reach_after reach1 legal2
theorem reach3 : Reach e3 := reach_after reach2 ⟨_, rfl⟩
theorem legal4 : Legal e3 (.store 2 0 9) := ⟨_, rfl, by decide, Or.inr ⟨_, rfl, Or.inl rfl⟩⟩
theorem reach4 : Reach e4 := reach_after reach3 legal4
theorem reach5 : Reach e5 := reach_after reach4 ⟨_, rfl⟩
theorem reach6 : Reach e6 := reach_after reach5 ⟨_, rfl⟩
theorem legal7 : Legal e6 (.store 3 1 4) := ⟨_, rfl, by decide, Or.inr ⟨_, rfl, Or.inr rfl⟩⟩
theorem reach7 : Reach e7 := reach_after reach6 legal7

/-- `C77_documented_partial`: what was written is the data, and the lent array contains it. -/
example : exec .restoreData e4 = .ok e5 none ∧ Doc e4 e5 none .restoreData ∧
    (e5.heap 0).map (fun b => (b.buf.val 0, b.buf.val 1)) = some (9, 6) :=
  ⟨rfl, C77_documented_partial reach4 ⟨_, rfl⟩ rfl, rfl⟩

/-- Before access is given back, neither the data nor the lent array has changed. -/
example : (e4.heap 0).map (fun b => b.buf.val 0) = some 5 ∧ (e4.heap 1).map (fun b => b.buf.val 0) = some 5 := ⟨rfl, rfl⟩

/-- `C77_failed_partial`: access for writing is not granted twice. -/
example : exec (.getData .host) e3 = .err e3 .minor ∧ Keeps e3 e3 :=
  ⟨rfl, C77_failed_partial reach3 (c := .getData .host) ⟨_, rfl⟩ rfl⟩

/-- `C77_reports_partial`: nothing is reported for a program that only reads. -/
example : ∃ x w', e6.ctx = some x ∧ x.readers = 1 ∧ exec .restoreDataRead e6 = .ok w' none ∧ Clean e6 :=
  ⟨_, _, rfl, rfl, rfl, ((C77_reports_partial reach6 rfl).2.1 rfl).1.1 ⟨_, rfl⟩⟩

/-- `C77_reports_partial`: the change is reported. -/
example : ∃ x w', e7.ctx = some x ∧ x.readers = 1 ∧ exec .restoreDataRead e7 = .err w' .backend ∧ ¬ Clean e7 :=
  ⟨_, _, rfl, rfl, rfl, ((C77_reports_partial reach7 rfl).2.1 rfl).2.1 ⟨_, rfl⟩⟩

/-- `C77_access_partial` for a field that is changed while nothing is granted. -/
example : ∃ x x' w', e5.ctx = some x ∧ exec (.setField 1 (bytes 1 3)) e5 = .ok w' none ∧ w'.ctx = some x' ∧
    Access x x' (.setField 1 (bytes 1 3)) ∧ (w'.heap 0).map (fun b => (b.buf.val 0, b.buf.val 1)) = some (9, 3) :=
  ⟨_, _, _, rfl, rfl, rfl, C77_access_partial reach5 (c := .setField 1 (bytes 1 3)) ⟨_, rfl, by decide⟩ rfl rfl rfl, rfl⟩

/-- `C77_lent_partial`, with a lent array. -/
example : Lent e5 0 ∧ Is e5 := ⟨⟨_, rfl, rfl⟩, _, rfl⟩

/-- `C77_destroyed_partial`: the data destroy function is called with the lent array. -/
example : Legal (after e5 (.setDestroy .host)) .destroy ∧ (after (after e5 (.setDestroy .host)) .destroy).ctx = none ∧
    (after (after e5 (.setDestroy .host)) .destroy).log = [some 0] := ⟨⟨_, rfl, rfl⟩, rfl, rfl⟩

/-- `C77_no_leak_partial`: the array of the library is freed, the lent one stays. -/
example : (after e5 .destroy).ctx = none ∧ (after e5 .destroy).heap 1 = none ∧ ((after e5 .destroy).heap 0).isSome :=
  ⟨rfl, rfl, rfl⟩

/-- Data on a device is refused, but the data that the context had before is lost. -/
theorem C77_device_witness : ∃ w w', runOk [.malloc (bytes 2 5), .setData .host .copyValues 2 0] W.init = some w ∧
    exec (.setData .device .copyValues 2 0) w = .err w' .backend ∧ (∃ f, HasVals w 2 f) ∧ NoVals w' :=
  ⟨_, _, rfl, rfl, ⟨fun i => 5 + i, _, rfl, rfl, _, _, rfl, rfl, Nat.le_refl _, fun _ _ => rfl⟩, _, rfl, rfl⟩

/-- New data is accepted while the old data is read. The next reader is granted the old values. -/
theorem C77_reset_witness : ∃ w w' p, runOk [.malloc (bytes 1 5), .malloc (bytes 1 8), .setData .host .copyValues 1 0,
    .getDataRead .host, .setData .host .copyValues 1 1] W.init = some w ∧ (∃ f, HasVals w 1 f ∧ f 0 = 8) ∧
    exec (.getDataRead .host) w = .ok w' (some p) ∧ (w'.heap p).map (fun b => b.buf.val 0) = some 5 :=
  ⟨_, _, _, rfl, ⟨fun i => 8 + i, ⟨_, rfl, rfl, _, _, rfl, rfl, Nat.le_refl _, fun _ _ => rfl⟩, rfl⟩, rfl, rfl⟩

/-- With new data that is longer, the check of the copy for readers runs over its end. -/
theorem C77_reset_longer_witness : ∃ w, runOk [.malloc (bytes 1 5), .malloc (bytes 2 8), .setData .host .copyValues 1 0,
    .getDataRead .host, .setData .host .copyValues 2 1] W.init = some w ∧ exec .restoreDataRead w = .ub := ⟨_, rfl, rfl⟩

/-- Data can be taken while it is read. Then access for reading cannot be given back: a null pointer is read. -/
theorem C77_take_witness : ∃ w, runOk [.malloc (bytes 1 5), .setData .host .usePointer 1 0, .getDataRead .host,
    .takeData .host] W.init = some w ∧ exec .restoreDataRead w = .ub := ⟨_, rfl, rfl⟩

/-- A context can be destroyed while it is read. The copy for readers is not freed. -/
theorem C77_leak_witness : ∃ w b, runOk [.malloc (bytes 1 5), .setData .host .copyValues 1 0, .getDataRead .host,
    .destroy] W.init = some w ∧ w.ctx = none ∧ w.heap 2 = some b ∧ b.lib = true := ⟨_, _, rfl, rfl, rfl, rfl⟩

/-- After a change was reported, the changed copy is kept: the next reader is granted the changed values, and is told that it
has changed them. -/
theorem C77_stale_witness : ∃ w w' w'' w3, runOk [.malloc (bytes 1 5), .setData .host .copyValues 1 0, .getDataRead .host,
    .store 2 0 7] W.init = some w ∧ exec .restoreDataRead w = .err w' .backend ∧
    exec (.getDataRead .host) w' = .ok w'' (some 2) ∧ (w''.heap 2).map (fun b => b.buf.val 0) = some 7 ∧
    exec .restoreDataRead w'' = .err w3 .backend := ⟨_, _, _, _, rfl, rfl, rfl, rfl, rfl⟩

/-- After a change was reported, fields cannot be set any more, although no access is granted: every such call makes the same
report. -/
theorem C77_field_witness : ∃ w w' w'', runOk [.malloc (bytes 1 5), .setData .host .copyValues 1 0, .getDataRead .host,
    .store 2 0 7] W.init = some w ∧ exec .restoreDataRead w = .err w' .backend ∧
    exec (.setField 0 (bytes 1 7)) w' = .err w'' .backend := ⟨_, _, _, rfl, rfl, rfl⟩

/-- The data destroy function of a context with copied data is called with a null pointer. -/
theorem C77_null_witness : ∃ w w', runOk [.malloc (bytes 1 5), .setData .host .copyValues 1 0, .setDestroy .host]
    W.init = some w ∧ (∃ f, HasVals w 1 f) ∧ exec .destroy w = .ok w' none ∧ w'.log = [none] :=
  ⟨_, _, rfl, ⟨fun i => 5 + i, _, rfl, rfl, _, _, rfl, rfl, Nat.le_refl _, fun _ _ => rfl⟩, rfl, rfl⟩

/-- A data destroy function for a device is accepted. Then the context cannot be destroyed and cannot get data. -/
theorem C77_undestroyed_witness : ∃ w, runOk [.malloc (bytes 1 5), .setDestroy .device] W.init = some w ∧
    exec .destroy w = .err w .backend ∧ exec (.setData .host .copyValues 1 0) w = .err w .backend := ⟨_, rfl, rfl, rfl⟩

end CheckCtx
end Verif
