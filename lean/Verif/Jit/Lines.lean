import Verif.Jit.Path

/-!
# Lines and what the loader makes of them

Specification: `Line`, `Line.render`, `Line.Ok`, `nonblank`, `Target`, `Flat`.
-/

namespace Verif
namespace Jit

/-- The lines of a text. -/
def lines : Str → List Str
  | [] => [[]]
  | c :: t =>
    if c = '\n' then [] :: lines t
    else
      match lines t with
      | [] => [[c]]
      | l :: ls => (c :: l) :: ls

/-- The lines that are not empty. -/
def nonblank (s : Str) : List Str := (lines s).filter (· ≠ [])

/-- The line, if it is not empty. -/
def keep (s : Str) : List Str := if s = [] then [] else [s]

/-- Spaces only. -/
def Spaces (s : Str) : Prop := ∀ c ∈ s, c = ' '

/-- A line of a source file. -/
inductive Line where
  /-- Any other line. -/
  | text (s : Str)
  /-- `#sp include gap "name" tail` -/
  | loc (sp gap name tail : Str)
  /-- `#sp include gap <name> tail` -/
  | sys (sp gap name tail : Str)
  /-- `#sp pragma gap once tail` -/
  | once (sp gap tail : Str)
  /-- `#sp pragma rest` -/
  | pragma (sp rest : Str)

/-- How the line is written, without the line break. -/
def Line.render : Line → Str
  | .text s => s
  | .loc sp gap name tail => '#' :: (sp ++ ("include".toList ++ (gap ++ '"' :: (name ++ '"' :: tail))))
  | .sys sp gap name tail => '#' :: (sp ++ ("include".toList ++ (gap ++ '<' :: (name ++ '>' :: tail))))
  | .once sp gap tail => '#' :: (sp ++ ("pragma".toList ++ (gap ++ ("once".toList ++ tail))))
  | .pragma sp rest => '#' :: (sp ++ ("pragma".toList ++ rest))

/-- What follows a `#` could be taken for a directive that the loader handles. -/
def looksLike (t : Str) : Prop :=
  t.dropWhile (· = ' ') = [] ∨ "include".toList <+: t.dropWhile (· = ' ') ∨ "pragma".toList <+: t.dropWhile (· = ' ') ∨ "pragma".toList <+: (t.dropWhile (· = ' ')).drop 1

/-- No line break, and no `#` that could be taken for such a directive. -/
def Plain (s : Str) : Prop := '\n' ∉ s ∧ ∀ A t, s = A ++ '#' :: t → ¬ looksLike t

/-- A line that is what it seems to be: other lines do not hold directives, such as in comments, and what follows a directive neither. -/
def Line.Ok : Line → Prop
  | .text s => Plain s
  | .loc sp gap name tail => Spaces sp ∧ Spaces gap ∧ '"' ∉ name ∧ Plain (gap ++ '"' :: (name ++ '"' :: tail))
  | .sys sp gap name tail =>
    Spaces sp ∧ Spaces gap ∧ '>' ∉ name ∧ '"' ∉ gap ++ '<' :: (name ++ '>' :: tail) ∧ Plain (gap ++ '<' :: (name ++ '>' :: tail))
  | .once sp gap tail => Spaces sp ∧ Spaces gap ∧ Plain (gap ++ ("once".toList ++ tail))
  | .pragma sp rest => Spaces sp ∧ Plain rest ∧ ∀ A B, rest = A ++ ("once".toList ++ B) → 'o' ∈ A

/-- The text with these lines. -/
def body (ls : List Line) : Str := ls.flatMap fun l => l.render ++ ['\n']

/-- A header of the library that is put in place. -/
def CeedHeader (name : Str) : Prop :=
  "ceed/jit-source/".toList <+: name ∨ name = "ceed/types.h".toList ∨ name = "ceed/ceed-f32.h".toList ∨ name = "ceed/ceed-f64.h".toList

/-- A header that is left out, unless it is put in place. -/
def StdHeader (name : Str) : Prop := "std".toList <+: name ∨ name = "math.h".toList ∨ "ceed".toList <+: name

/-- The path of the file that a line of the file `path` includes: relative to the directory of that file or, for headers of the library, to the
first root that has it. -/
inductive Target (fs : Str → Option Str) (roots : List Str) (path : Str) : Line → Str → Prop
  | loc {sp gap name tail : Str} {ds cs r : List Str} {f : Str} :
    path = joinPath (ds ++ [f]) → '/' :: name = joinPath cs → (∀ c ∈ ds ++ [f], Name c) → (∀ c ∈ cs, Name c) → resolve [] (ds ++ cs) = .ok r →
    Target fs roots path (.loc sp gap name tail) (joinPath r)
  | sys {sp gap name tail : Str} {rs cs r : List Str} {r1 r2 : List Str} :
    CeedHeader name → '/' :: name = joinPath cs → (∀ c ∈ rs, Name c) → (∀ c ∈ cs, Name c) → roots = r1 ++ (joinPath rs ++ ['/']) :: r2 →
    (∀ q ∈ r1, ∃ d, q = d ++ ['/'] ∧ ':' ∉ q ∧ fs (q ++ name) = none) → ':' ∉ name → ':' ∉ joinPath rs → (fs (joinPath rs ++ '/' :: name)).isSome →
    resolve [] (rs ++ cs) = .ok r → Target fs roots path (.sys sp gap name tail) (joinPath r)

mutual

/-- Putting headers in place: `Flat path inc out inc'` when the file `path`, with the headers `inc` included before, yields the lines `out`
and then the headers `inc'` are included. -/
inductive Flat (fs : Str → Option Str) (roots : List Str) : Str → List Str → List Str → List Str → Prop
  | file {path : Str} {ls : List Line} {last : Str} {inc out inc' : List Str} :
    fs path = some (body ls ++ last) → body ls ++ last ≠ [] → Plain last → FlatLines fs roots path ls inc out inc' →
    Flat fs roots path inc (out ++ keep last) inc'

/-- The same for lines of the file `path`. -/
inductive FlatLines (fs : Str → Option Str) (roots : List Str) : Str → List Line → List Str → List Str → List Str → Prop
  | nil {path : Str} {inc : List Str} : FlatLines fs roots path [] inc [] inc
  | text {path s : Str} {ls : List Line} {inc out inc' : List Str} :
    (Line.text s).Ok → FlatLines fs roots path ls inc out inc' → FlatLines fs roots path (.text s :: ls) inc (keep s ++ out) inc'
  | once {path sp gap tail : Str} {ls : List Line} {inc out inc' : List Str} :
    (Line.once sp gap tail).Ok → FlatLines fs roots path ls inc out inc' → FlatLines fs roots path (.once sp gap tail :: ls) inc out inc'
  | pragma {path sp rest : Str} {ls : List Line} {inc out inc' : List Str} :
    (Line.pragma sp rest).Ok → FlatLines fs roots path ls inc out inc' →
    FlatLines fs roots path (.pragma sp rest :: ls) inc ((Line.pragma sp rest).render :: out) inc'
  | std {path sp gap name tail : Str} {ls : List Line} {inc out inc' : List Str} :
    (Line.sys sp gap name tail).Ok → ¬ CeedHeader name → StdHeader name → FlatLines fs roots path ls inc out inc' →
    FlatLines fs roots path (.sys sp gap name tail :: ls) inc out inc'
  | other {path sp gap name tail : Str} {ls : List Line} {inc out inc' : List Str} :
    (Line.sys sp gap name tail).Ok → ¬ CeedHeader name → ¬ StdHeader name → FlatLines fs roots path ls inc out inc' →
    FlatLines fs roots path (.sys sp gap name tail :: ls) inc ((Line.sys sp gap name tail).render :: out) inc'
  | seen {path p : Str} {l : Line} {ls : List Line} {inc out inc' : List Str} :
    l.Ok → Target fs roots path l p → p ∈ inc → FlatLines fs roots path ls inc out inc' → FlatLines fs roots path (l :: ls) inc out inc'
  | incl {path p : Str} {l : Line} {ls : List Line} {inc out1 inc1 out2 inc2 : List Str} :
    l.Ok → Target fs roots path l p → p ∉ inc → Flat fs roots p inc out1 inc1 → FlatLines fs roots path ls (inc1 ++ [p]) out2 inc2 →
    FlatLines fs roots path (l :: ls) inc (out1 ++ out2) inc2

end

/-! ## Lines of texts -/

theorem lines_ne (s : Str) : lines s ≠ [] := by
  cases s with
  | nil => simp [lines]
  | cons c t =>
    unfold lines
    split_ifs
    · simp
    · split <;> simp

theorem lines_append (a b : Str) : lines (a ++ '\n' :: b) = lines a ++ lines b := by
  induction a with
  | nil => simp [lines]
  | cons c t ih =>
    rw [List.cons_append, lines, lines, ih]
    by_cases hc : c = '\n'
    · rw [if_pos hc, if_pos hc]; rfl
    · rw [if_neg hc, if_neg hc]
      cases h : lines t with
      | nil => exact absurd h (lines_ne t)
      | cons l ls => rfl

theorem nonblank_append (a b : Str) : nonblank (a ++ '\n' :: b) = nonblank a ++ nonblank b := by
  rw [nonblank, lines_append, List.filter_append]
  rfl

theorem nonblank_nil : nonblank [] = [] := by simp [nonblank, lines]

theorem lines_line {s : Str} (h : '\n' ∉ s) : lines s = [s] := by
  induction s with
  | nil => rfl
  | cons c t ih =>
    rw [lines, if_neg fun hc => h (by rw [hc]; exact List.mem_cons_self), ih fun hc => h (List.mem_cons_of_mem _ hc)]

theorem nonblank_line {s : Str} (h : '\n' ∉ s) : nonblank s = keep s := by
  rw [nonblank, lines_line h, keep]
  by_cases hs : s = [] <;> simp [hs]

/-- Text that waits to be copied: complete lines. -/
def Pend (P : Str) : Prop := P = [] ∨ ∃ P', P = P' ++ ['\n']

theorem Pend.add {P s : Str} : Pend (P ++ (s ++ ['\n'])) := .inr ⟨P ++ s, by simp⟩

theorem Pend.nonblank {P s : Str} (h : Pend P) : nonblank (P ++ s) = nonblank P ++ nonblank s := by
  rcases h with rfl | ⟨P', rfl⟩
  · rw [nonblank_nil]; rfl
  · rw [show P' ++ ['\n'] ++ s = P' ++ '\n' :: s by simp, show P' ++ ['\n'] = P' ++ '\n' :: [] by simp, nonblank_append, nonblank_append, nonblank_nil, List.append_nil]

theorem nonblank_append_buf {buf P x : Str} (h : Pend P) : nonblank (append buf (P ++ x) P.length) = nonblank buf ++ nonblank P := by
  rw [append, List.take_left]
  rcases h with rfl | ⟨P', rfl⟩
  · simp [nonblank_nil]
  · have e : (buf ++ '\n' :: (P' ++ ['\n'])).take (buf.length + (P' ++ ['\n']).length) = buf ++ '\n' :: P' := by
      rw [show buf ++ '\n' :: (P' ++ ['\n']) = (buf ++ '\n' :: P') ++ ['\n'] by simp]
      rw [show buf.length + (P' ++ ['\n']).length = (buf ++ '\n' :: P').length by simp, List.take_left]
    rw [e, nonblank_append, show P' ++ ['\n'] = P' ++ '\n' :: [] by simp, nonblank_append, nonblank_nil, List.append_nil]

theorem append_line {buf P l more : Str} : append buf (P ++ (l ++ '\n' :: more)) (P.length + l.length + 1) = buf ++ '\n' :: (P ++ l) := by
  have e1 : (P ++ (l ++ '\n' :: more)).take (P.length + l.length + 1) = P ++ l ++ ['\n'] := by
    rw [show P ++ (l ++ '\n' :: more) = (P ++ l ++ ['\n']) ++ more by simp, show P.length + l.length + 1 = (P ++ l ++ ['\n']).length by simp; omega, List.take_left]
  rw [append, e1, show buf ++ '\n' :: (P ++ l ++ ['\n']) = (buf ++ '\n' :: (P ++ l)) ++ ['\n'] by simp,
    show buf.length + (P.length + l.length + 1) = (buf ++ '\n' :: (P ++ l)).length by simp, List.take_left]

/-! ## Recognising directives -/

theorem dropWhile_spaces {sp x : Str} (h : Spaces sp) : (sp ++ x).dropWhile (· = ' ') = x.dropWhile (· = ' ') := by
  induction sp with
  | nil => rfl
  | cons c t ih =>
    have hc : c = ' ' := h c List.mem_cons_self
    rw [List.cons_append, List.dropWhile_cons, if_pos (by simp [hc]), ih fun c hc => h c (List.mem_cons_of_mem _ hc)]

theorem all_spaces {s : Str} (h : s.all (· = ' ') = true) : Spaces s := by
  intro c hc
  simpa using List.all_eq_true.mp h c hc

theorem isPragma_cases {x : Str} (h : isPragma ('#' :: x) = true) :
    "pragma".toList <+: x.dropWhile (· = ' ') ∨ "pragma".toList <+: (x.dropWhile (· = ' ')).drop 1 := by
  unfold isPragma at h
  cases hm : strchr ('#' :: x) 'm' with
  | none => rw [hm] at h; cases h
  | some m =>
    rw [hm] at h
    simp only [Bool.and_eq_true, decide_eq_true_eq] at h
    obtain ⟨⟨hd, hk⟩, hs⟩ := h
    generalize hdd : ('#' :: x).length - m.length = d at *
    obtain ⟨k, rfl⟩ : ∃ k, d = k + 5 := ⟨d - 5, by omega⟩
    rw [show k + 5 - 4 = k + 1 by omega, List.drop_succ_cons] at hk
    rw [Nat.add_sub_cancel] at hs
    have hpre : "pragma".toList <+: x.drop k := by rw [← hk]; exact List.take_prefix _ _
    cases k with
    | zero =>
      left
      obtain ⟨Z, hZ⟩ := hpre
      rw [List.drop_zero] at hZ
      rw [← hZ]
      exact ⟨Z, rfl⟩
    | succ k =>
      rw [List.take_succ_cons, List.drop_succ_cons, List.drop_zero] at hs
      have hsp := all_spaces hs
      have hx : x = x.take k ++ x.drop k := (List.take_append_drop k x).symm
      rw [hx, dropWhile_spaces hsp]
      obtain ⟨Z, hZ⟩ := hpre
      have hdk : (x.drop k).drop 1 = "pragma".toList ++ Z := by rw [List.drop_drop, hZ]
      cases hy : x.drop k with
      | nil => rw [hy] at hdk; cases hdk
      | cons y t =>
        rw [hy, List.drop_succ_cons, List.drop_zero] at hdk
        subst hdk
        by_cases hyc : y = ' '
        · left
          rw [List.dropWhile_cons, if_pos (by simp [hyc])]
          exact ⟨Z, rfl⟩
        · right
          rw [List.dropWhile_cons, if_neg (by simp [hyc])]
          exact ⟨Z, rfl⟩

theorem isInclude_cases {x : Str} (h : isInclude ('#' :: x) = true) : "include".toList <+: x.dropWhile (· = ' ') := by
  unfold isInclude at h
  cases hm : strchr ('#' :: x) 'e' with
  | none => rw [hm] at h; cases h
  | some m =>
    rw [hm] at h
    simp only [Bool.and_eq_true, decide_eq_true_eq] at h
    obtain ⟨⟨hd, hk⟩, hs⟩ := h
    generalize hdd : ('#' :: x).length - m.length = d at *
    obtain ⟨k, rfl⟩ : ∃ k, d = k + 7 := ⟨d - 7, by omega⟩
    rw [show k + 7 - 6 = k + 1 by omega, List.drop_succ_cons] at hk
    rw [show k + 7 - 6 = k + 1 by omega, List.take_succ_cons, List.drop_succ_cons, List.drop_zero] at hs
    obtain ⟨Z, hZ⟩ : "include".toList <+: x.drop k := by rw [← hk]; exact List.take_prefix _ _
    rw [show x = x.take k ++ x.drop k from (List.take_append_drop k x).symm, dropWhile_spaces (all_spaces hs), ← hZ]
    exact ⟨Z, rfl⟩

/-- The end of a line. -/
def Eol (R : Str) : Prop := R = [] ∨ ∃ m, R = '\n' :: m

theorem pre_of {w t R : Str} (hw : '\n' ∉ w) (hR : Eol R) (h : w <+: t ++ R) : w <+: t := by
  obtain ⟨Z, hZ⟩ := h
  induction w generalizing t with
  | nil => exact List.nil_prefix
  | cons c w ih =>
    cases t with
    | nil =>
      rcases hR with rfl | ⟨m, rfl⟩
      · cases hZ
      · rw [List.cons_append, List.nil_append] at hZ
        cases hZ
        exact absurd List.mem_cons_self hw
    | cons d t =>
      rw [List.cons_append, List.cons_append] at hZ
      injection hZ with h1 h2
      subst h1
      exact List.cons_prefix_cons.mpr ⟨rfl, ih (fun hc => hw (List.mem_cons_of_mem _ hc)) h2⟩

theorem dropWhile_append_ne {t R : Str} (h : t.dropWhile (· = ' ') ≠ []) : (t ++ R).dropWhile (· = ' ') = t.dropWhile (· = ' ') ++ R := by
  induction t with
  | nil => exact absurd rfl h
  | cons c t ih =>
    rw [List.cons_append, List.dropWhile_cons, List.dropWhile_cons]
    by_cases hc : c = ' '
    · rw [if_pos (by simp [hc]), if_pos (by simp [hc])]
      rw [List.dropWhile_cons, if_pos (by simp [hc])] at h
      exact ih h
    · rw [if_neg (by simp [hc]), if_neg (by simp [hc])]
      rfl

theorem not_directive {t R : Str} (hR : Eol R) (h : ¬ looksLike t) : isPragma ('#' :: (t ++ R)) = false ∧ isInclude ('#' :: (t ++ R)) = false := by
  have hne : t.dropWhile (· = ' ') ≠ [] := fun e => h (.inl e)
  constructor
  · rw [Bool.eq_false_iff]
    intro hp
    rcases isPragma_cases hp with hp | hp
    · rw [dropWhile_append_ne hne] at hp
      exact h (.inr (.inr (.inl (pre_of (by decide) hR hp))))
    · rw [dropWhile_append_ne hne, List.drop_append_of_le_length (List.length_pos_iff.mpr hne)] at hp
      exact h (.inr (.inr (.inr (pre_of (by decide) hR hp))))
  · rw [Bool.eq_false_iff]
    intro hp
    have hp := isInclude_cases hp
    rw [dropWhile_append_ne hne] at hp
    exact h (.inr (.inl (pre_of (by decide) hR hp)))

theorem Spaces.not_mem {sp : Str} (h : Spaces sp) {c : Char} (hc : c ≠ ' ') : c ∉ sp := fun hm => hc (h c hm)

theorem directive_include {sp x : Str} (h : Spaces sp) :
    isInclude ('#' :: (sp ++ ("include".toList ++ x))) = true ∧ isPragma ('#' :: (sp ++ ("include".toList ++ x))) = false := by
  constructor
  · have e : '#' :: (sp ++ ("include".toList ++ x)) = ('#' :: (sp ++ "includ".toList)) ++ 'e' :: x := by simp
    have hs : strchr ('#' :: (sp ++ ("include".toList ++ x))) 'e' = some ('e' :: x) := by
      rw [e]
      refine strchr_at ?_
      have := h.not_mem (c := 'e') (by decide)
      simp [this]
    unfold isInclude
    rw [hs]
    have hd : ('#' :: (sp ++ ("include".toList ++ x))).length - ('e' :: x).length = sp.length + 7 := by
      simp; omega
    simp only [hd]
    rw [Bool.and_eq_true, decide_eq_true_eq]
    refine ⟨⟨by omega, ?_⟩, ?_⟩
    · rw [show sp.length + 7 - 6 = sp.length + 1 by omega, List.drop_succ_cons, List.drop_left]
      exact List.take_left' rfl
    · rw [show sp.length + 7 - 6 = sp.length + 1 by omega, List.take_succ_cons, List.take_left, List.drop_succ_cons, List.drop_zero, List.all_eq_true]
      intro c hc
      simpa using h c hc
  · rw [Bool.eq_false_iff]
    intro hp
    have e : ("include".toList ++ x).dropWhile (· = ' ') = "include".toList ++ x := rfl
    rcases isPragma_cases hp with ⟨Z, hZ⟩ | ⟨Z, hZ⟩
    · rw [dropWhile_spaces h, e] at hZ
      simp at hZ
    · rw [dropWhile_spaces h, e] at hZ
      simp at hZ

theorem directive_pragma {sp x : Str} (h : Spaces sp) :
    isPragma ('#' :: (sp ++ ("pragma".toList ++ x))) = true ∧ isInclude ('#' :: (sp ++ ("pragma".toList ++ x))) = false := by
  constructor
  · have e : '#' :: (sp ++ ("pragma".toList ++ x)) = ('#' :: (sp ++ "prag".toList)) ++ 'm' :: 'a' :: x := by simp
    have hs : strchr ('#' :: (sp ++ ("pragma".toList ++ x))) 'm' = some ('m' :: 'a' :: x) := by
      rw [e]
      refine strchr_at ?_
      have := h.not_mem (c := 'm') (by decide)
      simp [this]
    unfold isPragma
    rw [hs]
    have hd : ('#' :: (sp ++ ("pragma".toList ++ x))).length - ('m' :: 'a' :: x).length = sp.length + 5 := by
      simp; omega
    simp only [hd]
    rw [Bool.and_eq_true, decide_eq_true_eq]
    refine ⟨⟨by omega, ?_⟩, ?_⟩
    · rw [show sp.length + 5 - 4 = sp.length + 1 by omega, List.drop_succ_cons, List.drop_left]
      exact List.take_left' rfl
    · rw [Nat.add_sub_cancel, List.all_eq_true]
      intro c hc
      cases hl : sp.length with
      | zero => rw [hl] at hc; simp at hc
      | succ k =>
        rw [hl, List.take_succ_cons, List.drop_succ_cons, List.drop_zero, List.take_append_of_le_length (by omega)] at hc
        simpa using h c (List.mem_of_mem_take hc)
  · rw [Bool.eq_false_iff]
    intro hp
    have e : ("pragma".toList ++ x).dropWhile (· = ' ') = "pragma".toList ++ x := rfl
    obtain ⟨Z, hZ⟩ := isInclude_cases hp
    rw [dropWhile_spaces h, e] at hZ
    simp at hZ

end Jit
end Verif
