import Verif.Jit.Model
import Mathlib.Logic.Relation

/-!
# Every header is put in place once

`Includes a b` says that the file `a` has a directive that puts the file `b` in place. It does not depend on what has been included.
-/

namespace Verif
namespace Jit

/-- The path of the file that the directive which begins here puts in place. -/
def target (fs : Str → Option Str) (roots : List Str) (path hash : Str) : Option Str :=
  match strchr hash '\n' with
  | none => none
  | some nl =>
    match onLine (strchr hash '"') nl, onLine (strchr hash '<') nl with
    | some q, _ =>
      match localPath path q with
      | .ok p =>
        match normalize p with
        | .ok p => some p
        | _ => none
      | _ => none
    | none, some l =>
      if isCeedHeader l then
        match ceedPath fs roots hash l with
        | .ok p =>
          match normalize p with
          | .ok p => some p
          | _ => none
        | _ => none
      else none
    | none, none => none

/-- The paths of the files that the directives of this text put in place. -/
def targets (fs : Str → Option Str) (roots : List Str) (path : Str) : Str → List Str
  | [] => []
  | x :: t => (if x = '#' ∧ isInclude (x :: t) = true then (target fs roots path (x :: t)).toList else []) ++ targets fs roots path t

/-- The file `a` has a directive that puts the file `b` in place. -/
def Includes (fs : Str → Option Str) (roots : List Str) (a b : Str) : Prop := ∃ src, fs a = some src ∧ b ∈ targets fs roots a src

/-- The same, and `b` is not among the files `S`. -/
def IncludesNew (fs : Str → Option Str) (roots : List Str) (S : List Str) (a b : Str) : Prop := Includes fs roots a b ∧ b ∉ S

variable {fs : Str → Option Str} {roots : List Str} {ld : Str → St → Res St} {path : Str}

/-- How the list of included files changes along the targets. -/
inductive Walk (ld : Str → St → Res St) : List Str → List Str → List Str → Prop
  | nil {S : List Str} : Walk ld [] S S
  | seen {b : Str} {ts S S' : List Str} : b ∈ S → Walk ld ts S S' → Walk ld (b :: ts) S S'
  | new {b : Str} {ts S S' : List Str} {st1 st2 : St} : b ∉ S → st1.paths = S → ld b st1 = .ok st2 → Walk ld ts (st2.paths ++ [b]) S' → Walk ld (b :: ts) S S'

theorem includeFile_walk {incl p : Str} {ts S' : List Str} {st st' : St} (hn : normalize incl = .ok p) (h : includeFile ld incl st = .ok st')
    (hw : Walk ld ts st'.paths S') : Walk ld (p :: ts) st.paths S' := by
  rw [includeFile, hn] at h
  change (if p ∈ st.paths then Res.ok st else _) = _ at h
  by_cases hp : p ∈ st.paths
  · rw [if_pos hp] at h
    cases h
    exact .seen hp hw
  · rw [if_neg hp] at h
    cases hl : ld p st with
    | err c => rw [hl] at h; cases h
    | ub => rw [hl] at h; cases h
    | ok st2 =>
      rw [hl] at h
      cases h
      exact .new hp rfl hl hw

theorem includeFile_norm {incl : Str} {st st' : St} (h : includeFile ld incl st = .ok st') : ∃ p, normalize incl = .ok p := by
  cases hn : normalize incl with
  | ok p => exact ⟨p, rfl⟩
  | err c => rw [includeFile, hn] at h; cases h
  | ub => rw [includeFile, hn] at h; cases h

theorem onInclude_walk {hash off off' : Str} {ts S' : List Str} {st st' : St} (h : onInclude fs roots ld path hash off st = .ok (st', off'))
    (hw : Walk ld ts st'.paths S') : Walk ld ((target fs roots path hash).toList ++ ts) st.paths S' := by
  unfold onInclude at h
  unfold target
  cases hnl : strchr hash '\n' with
  | none => rw [hnl] at h; cases h
  | some nl =>
    rw [hnl] at h
    simp only at h ⊢
    by_cases hlen : off.length < hash.length
    · rw [if_pos hlen] at h; cases h
    rw [if_neg hlen] at h
    cases hq : onLine (strchr hash '"') nl with
    | some q =>
      rw [hq] at h
      simp only at h ⊢
      cases hp : localPath path q with
      | err c => rw [hp] at h; cases h
      | ub => rw [hp] at h; cases h
      | ok p =>
        rw [hp] at h
        change ((includeFile ld p _) >>= _) = _ at h
        cases hi : includeFile ld p ⟨append st.buf off (off.length - hash.length), st.paths⟩ with
        | err c => rw [hi] at h; cases h
        | ub => rw [hi] at h; cases h
        | ok st2 =>
          rw [hi] at h
          cases h
          obtain ⟨b, hb⟩ := includeFile_norm hi
          simp only [hb]
          exact includeFile_walk (st := ⟨append st.buf off (off.length - hash.length), st.paths⟩) hb hi hw
    | none =>
      rw [hq] at h
      cases hl : onLine (strchr hash '<') nl with
      | none =>
        rw [hl] at h
        cases h
        exact hw
      | some l =>
        rw [hl] at h
        simp only at h ⊢
        by_cases hc : isCeedHeader l = true
        · rw [if_pos hc] at h ⊢
          cases hp : ceedPath fs roots hash l with
          | err c => rw [hp] at h; cases h
          | ub => rw [hp] at h; cases h
          | ok p =>
            rw [hp] at h
            change ((includeFile ld p _) >>= _) = _ at h
            cases hi : includeFile ld p ⟨append st.buf off (off.length - hash.length), st.paths⟩ with
            | err c => rw [hi] at h; cases h
            | ub => rw [hi] at h; cases h
            | ok st2 =>
              rw [hi] at h
              cases h
              obtain ⟨b, hb⟩ := includeFile_norm hi
              simp only [hb]
              exact includeFile_walk (st := ⟨append st.buf off (off.length - hash.length), st.paths⟩) hb hi hw
        · rw [if_neg hc] at h ⊢
          by_cases hs : isStdHeader l = true
          · rw [if_pos hs] at h
            cases h
            exact hw
          · rw [if_neg hs] at h
            cases h
            exact hw

theorem scan_walk {text off off' : Str} {st st' : St} (h : scan fs roots ld path text off st = .ok (st', off')) :
    Walk ld (targets fs roots path text) st.paths st'.paths := by
  induction text generalizing off st with
  | nil =>
    cases h
    exact .nil
  | cons x t ih =>
    rw [targets]
    by_cases hx : x = '#'
    · rw [scan, if_pos hx] at h
      -- a pragma leaves the list as it is
      cases hp : atPragma (x :: t) off st with
      | err c => rw [hp] at h; cases h
      | ub => rw [hp] at h; cases h
      | ok r =>
        obtain ⟨st1, off1⟩ := r
        have e1 : st1.paths = st.paths := by
          unfold atPragma at hp
          by_cases hpr : isPragma (x :: t) = true
          · rw [if_pos hpr] at hp
            cases ho : onPragma (x :: t) off st.buf with
            | err c => rw [ho] at hp; cases hp
            | ub => rw [ho] at hp; cases hp
            | ok r => rw [ho] at hp; cases hp; rfl
          · rw [if_neg hpr] at hp
            cases hp
            rfl
        rw [hp] at h
        change (atInclude fs roots ld path (x :: t) off1 st1 >>= _) = _ at h
        unfold atInclude at h
        by_cases hi : isInclude (x :: t) = true
        · rw [if_pos hi] at h
          rw [if_pos ⟨hx, hi⟩]
          cases ho : onInclude fs roots ld path (x :: t) off1 st1 with
          | err c => rw [ho] at h; cases h
          | ub => rw [ho] at h; cases h
          | ok r =>
            obtain ⟨st2, off2⟩ := r
            rw [ho] at h
            rw [← e1]
            exact onInclude_walk ho (ih h)
        · rw [if_neg hi] at h
          rw [if_neg fun h => hi h.2, ← e1]
          exact ih h
    · rw [scan, if_neg hx] at h
      rw [if_neg fun h => hx h.1]
      exact ih h

/-! ## Files that have been included -/

open Relation in
theorem new_mono {S S' : List Str} (h : ∀ b ∈ S, b ∈ S') {a b : Str} (hp : TransGen (IncludesNew fs roots S') a b) : TransGen (IncludesNew fs roots S) a b := by
  induction hp with
  | single h1 => exact .single ⟨h1.1, fun h2 => h1.2 (h _ h2)⟩
  | tail _ h1 ih => exact .tail ih ⟨h1.1, fun h2 => h1.2 (h _ h2)⟩

/-- What loading does to the list of included files. -/
def LoadSpec (fs : Str → Option Str) (roots : List Str) (ld : Str → St → Res St) : Prop :=
  ∀ p st st', ld p st = .ok st' →
    (∃ new, st'.paths = st.paths ++ new) ∧ (∀ b ∈ st'.paths, b ∈ st.paths ∨ Relation.TransGen (IncludesNew fs roots st.paths) p b) ∧
      ¬ Relation.TransGen (IncludesNew fs roots st.paths) p p ∧ (st.paths.Nodup → st'.paths.Nodup)

theorem walk_grow (hld : LoadSpec fs roots ld) {ts S S' : List Str} (h : Walk ld ts S S') : ∃ new, S' = S ++ new := by
  induction h with
  | nil => exact ⟨[], by simp⟩
  | seen _ _ ih => exact ih
  | new _ h1 h2 _ ih =>
    obtain ⟨n1, e1⟩ := (hld _ _ _ h2).1
    obtain ⟨n2, e2⟩ := ih
    rename_i b _ _ _ _ _ _ _
    refine ⟨n1 ++ [b] ++ n2, ?_⟩
    rw [e2, e1, h1]
    simp

theorem walk_reach (hld : LoadSpec fs roots ld) {p : Str} {S0 ts S S' : List Str} (h : Walk ld ts S S') (hts : ∀ t ∈ ts, Includes fs roots p t)
    (hS0 : ∀ b ∈ S0, b ∈ S) (hS : ∀ b ∈ S, b ∈ S0 ∨ Relation.TransGen (IncludesNew fs roots S0) p b) :
    ∀ b ∈ S', b ∈ S0 ∨ Relation.TransGen (IncludesNew fs roots S0) p b := by
  induction h with
  | nil => exact hS
  | seen _ _ ih => exact ih (fun t ht => hts t (List.mem_cons_of_mem _ ht)) hS0 hS
  | new h0 h1 h2 _ ih =>
    rename_i b ts S S' st1 st2 _
    subst h1
    obtain ⟨⟨n1, e1⟩, hr, _⟩ := hld _ _ _ h2
    have hb : IncludesNew fs roots S0 p b := ⟨hts b List.mem_cons_self, fun h => h0 (hS0 _ h)⟩
    refine ih (fun t ht => hts t (List.mem_cons_of_mem _ ht)) (fun c hc => ?_) fun c hc => ?_
    · rw [e1]
      exact List.mem_append_left _ (List.mem_append_left _ (hS0 c hc))
    · rcases List.mem_append.mp hc with hc | hc
      · rcases hr c hc with h | h
        · exact hS c h
        · exact .inr (.head hb (new_mono hS0 h))
      · rw [List.mem_singleton] at hc
        subst hc
        exact .inr (.single hb)

theorem walk_acyclic (hld : LoadSpec fs roots ld) {p : Str} {S0 ts S S' : List Str} (h : Walk ld ts S S') (hts : ∀ t ∈ ts, Includes fs roots p t)
    (hS0 : ∀ b ∈ S0, b ∈ S) (hS : ∀ b ∈ S, b ∉ S0 → ¬ Relation.ReflTransGen (IncludesNew fs roots S0) b p) :
    ∀ t ∈ ts, t ∉ S0 → ¬ Relation.ReflTransGen (IncludesNew fs roots S0) t p := by
  induction h with
  | nil => exact fun t ht => absurd ht (by simp)
  | seen hb _ ih =>
    intro t ht
    rcases List.mem_cons.mp ht with rfl | ht
    · exact hS _ hb
    · exact ih (fun t ht => hts t (List.mem_cons_of_mem _ ht)) hS0 hS t ht
  | new h0 h1 h2 _ ih =>
    rename_i b ts S S' st1 st2 _
    subst h1
    obtain ⟨⟨n1, e1⟩, hr, hac, _⟩ := hld _ _ _ h2
    have hbp : ¬ Relation.ReflTransGen (IncludesNew fs roots S0) b p := by
      intro hbp
      have hup : ∀ x, Relation.ReflTransGen (IncludesNew fs roots S0) x p → Relation.ReflTransGen (IncludesNew fs roots st1.paths) x p := by
        intro x hx
        induction hx using Relation.ReflTransGen.head_induction_on with
        | refl => exact .refl
        | head h1 h2 ih => exact .head ⟨h1.1, fun hc => hS _ hc h1.2 h2⟩ ih
      exact hac (Relation.TransGen.tail' (hup b hbp) ⟨hts b List.mem_cons_self, h0⟩)
    intro t ht
    rcases List.mem_cons.mp ht with rfl | ht
    · exact fun _ => hbp
    · refine ih (fun t ht => hts t (List.mem_cons_of_mem _ ht)) (fun c hc => ?_) (fun c hc hc0 => ?_) t ht
      · rw [e1]
        exact List.mem_append_left _ (List.mem_append_left _ (hS0 c hc))
      · rcases List.mem_append.mp hc with hc | hc
        · rcases hr c hc with h | h
          · exact hS c h hc0
          · exact fun hcp => hbp ((new_mono hS0 h).to_reflTransGen.trans hcp)
        · rw [List.mem_singleton] at hc
          subst hc
          exact hbp

theorem walk_nodup (hld : LoadSpec fs roots ld) {ts S S' : List Str} (h : Walk ld ts S S') (hn : S.Nodup) : S'.Nodup := by
  induction h with
  | nil => exact hn
  | seen _ _ ih => exact ih hn
  | new h0 h1 h2 _ ih =>
    subst h1
    obtain ⟨_, hr, hac, hnd⟩ := hld _ _ _ h2
    refine ih ?_
    rw [List.nodup_append]
    refine ⟨hnd hn, List.nodup_singleton _, ?_⟩
    rintro c hc _ hb rfl
    rw [List.mem_singleton] at hb
    subst hb
    rcases hr _ hc with h | h
    · exact h0 h
    · exact hac h

theorem load_spec (d : Nat) : LoadSpec fs roots (load fs roots d) := by
  induction d with
  | zero => intro p st st' h; cases h
  | succ d ih =>
    intro p st st' h
    rw [load] at h
    cases hf : fs p with
    | none => rw [hf] at h; cases h
    | some src =>
      rw [hf] at h
      simp only at h
      by_cases hs : src = []
      · rw [if_pos hs] at h; cases h
      rw [if_neg hs] at h
      cases hsc : scan fs roots (load fs roots d) p src src st with
      | err c => rw [hsc] at h; cases h
      | ub => rw [hsc] at h; cases h
      | ok r =>
        obtain ⟨st2, off⟩ := r
        rw [hsc] at h
        cases h
        have hw := scan_walk hsc
        have hts : ∀ t ∈ targets fs roots p src, Includes fs roots p t := fun t ht => ⟨src, hf, ht⟩
        refine ⟨walk_grow ih hw, walk_reach ih hw hts (fun b hb => hb) (fun b hb => .inl hb), ?_, walk_nodup ih hw⟩
        intro hcyc
        obtain ⟨t, h1, h2⟩ := Relation.TransGen.head'_iff.mp hcyc
        obtain ⟨⟨src', hf', ht⟩, hn⟩ := h1
        rw [hf] at hf'
        cases hf'
        exact walk_acyclic ih hw hts (fun b hb => hb) (fun b hb hb' => absurd hb hb') t ht hn h2

end Jit
end Verif
