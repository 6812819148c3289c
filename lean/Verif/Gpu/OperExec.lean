import Verif.Gpu.OperProps
import Verif.Gpu.BasisExamples

/-!
# A device on which everything can be computed

For concrete runs: blocks one after the other, in each block the threads one after the other up to a barrier. Where this
does not end within the given number of steps, some other outcome is taken.
-/

namespace Verif.Gpu

open Verif.Restriction (TMode)
open Verif.Basis (EMode)

theorem runThread_reach {G B b t : Nat} {c₀ : Cfg Int} : ∀ (n : Nat) {c : Cfg Int}, Reach G B c₀ c →
    Reach G B c₀ (runThread G B b t n c)
  | 0, _, h => h
  | n + 1, c, h => by
    unfold runThread
    split
    · next c' hs => exact runThread_reach n (.step h (stepT_step hs))
    · exact h

/-- The thread waits at a barrier. -/
def Prog.isSync {α : Type} : Prog α → Bool
  | .sync _ => true
  | _ => false

/-- Run the threads of a block up to a barrier, then release them if they wait; `n` times. -/
def execBlock (G B : Nat) (b : Nat) : Nat → Cfg Int → Cfg Int
  | 0, c => c
  | n + 1, c =>
    let c := (List.range B).foldl (fun c t => runThread G B b t 200 c) c
    if b < G ∧ ((List.range B).all fun t => (c.prog b t).waitsB) = true ∧ ((List.range B).any fun t => (c.prog b t).isSync) = true
    then execBlock G B b n ⟨c.mem, passBlock c.prog b⟩ else c

theorem foldl_reach {G B : Nat} {c₀ : Cfg Int} {f : Cfg Int → Nat → Cfg Int}
    (hf : ∀ c t, Reach G B c₀ c → Reach G B c₀ (f c t)) : ∀ (l : List Nat) {c : Cfg Int}, Reach G B c₀ c →
    Reach G B c₀ (l.foldl f c)
  | [], _, h => h
  | t :: l, c, h => foldl_reach hf l (hf c t h)

theorem execBlock_reach {G B b : Nat} {c₀ : Cfg Int} : ∀ (n : Nat) {c : Cfg Int}, Reach G B c₀ c →
    Reach G B c₀ (execBlock G B b n c)
  | 0, _, h => h
  | n + 1, c, h => by
    have h1 : Reach G B c₀ ((List.range B).foldl (fun c t => runThread G B b t 200 c) c) :=
      foldl_reach (fun c t h => runThread_reach 200 h) _ h
    unfold execBlock
    set c1 := (List.range B).foldl (fun c t => runThread G B b t 200 c) c
    simp only
    split
    · next hc =>
      obtain ⟨hb, hw, hs⟩ := hc
      rw [List.any_eq_true] at hs
      obtain ⟨t, ht, hs⟩ := hs
      rw [List.all_eq_true] at hw
      cases hp : c1.prog b t with
      | sync k =>
        refine execBlock_reach n (.step h1 (.sync hb (List.mem_range.1 ht) hp fun t' ht' => ?_))
        have := hw t' (List.mem_range.2 ht')
        cases hq : c1.prog b t' <;> rw [hq] at this <;> first | trivial | cases this
      | _ => rw [hp] at hs; cases hs
    · exact h1

/-- Run a launch, if that ends. -/
def runLaunch (L : Launch Int) : Option (Cfg Int) :=
  let c := (List.range L.G).foldl (fun c b => execBlock L.G L.B b 12 c) L.cfg
  if ((List.range L.G).all fun b => (List.range L.B).all fun t => (c.prog b t).isDone) = true then some c else none

theorem runLaunch_ok {L : Launch Int} {c : Cfg Int} (h : runLaunch L = some c) : Reach L.G L.B L.cfg c ∧ Final L.G L.B c := by
  unfold runLaunch at h
  simp only at h
  split at h
  · next hd =>
    cases h
    refine ⟨foldl_reach (fun c b h => execBlock_reach 12 h) _ .start, fun b hb t ht => isDone_eq ?_⟩
    rw [List.all_eq_true] at hd
    have := hd b (List.mem_range.2 hb)
    rw [List.all_eq_true] at this
    exact this t (List.mem_range.2 ht)
  · cases h

/-- The outcome of a launch. -/
noncomputable def outcome (r : Res (Launch Int)) (v : Buf Int) : Res (Buf Int) :=
  match r with
  | .err e => .err e
  | .ub => .ub
  | .ok L => match runLaunch L with
    | some c => .ok ⟨v.len, c.mem.val .v⟩
    | none => Classical.choose (outcome_exists (.ok L) v)

theorem outcome_ok (r : Res (Launch Int)) (v : Buf Int) : Outcome r v (outcome r v) := by
  unfold outcome
  split
  · rfl
  · refine ⟨?_, ?_⟩
    · rintro ⟨e, h⟩
      cases h
    · rintro ⟨L, h, _⟩
      cases h
  · next L =>
    split
    · next c hc => exact ⟨L, c, rfl, (runLaunch_ok hc).1, (runLaunch_ok hc).2, rfl⟩
    · exact Classical.choose_spec (outcome_exists (.ok L) v)

/-- The device. -/
noncomputable def execDev (dv : Device) : Dev Int where
  rstr _ x tm u v := outcome (applyCuda x .plain tm u v) v
  basis _ x add ne tm em u v := match add with
    | true => outcome (applyAddDev dv (fun _ _ => 7) x ne tm em u v) v
    | false => outcome (applyDev dv (fun _ _ => 7) x ne tm em u v) v

theorem execDev_real (dv : Device) : (execDev dv).Real dv :=
  ⟨fun _ _ _ _ _ => outcome_ok _ _, fun _ _ _ _ _ _ _ => ⟨_, outcome_ok _ _⟩, fun _ _ _ _ _ _ _ => ⟨_, outcome_ok _ _⟩⟩

end Verif.Gpu
