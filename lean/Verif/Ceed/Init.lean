import Verif.State

/-!
# Backend registration and selection

`CeedRegister`, `CeedRegisterImpl`, the selection part of `CeedInit`, `CeedGetResourceRoot`.

A C string is the list of its characters before the terminating NUL. Walking a C string up to its NUL is recursion on
that list. The Levenshtein suggestion of `CeedInit` (1090-1121) only builds the text of an error message; what remains
of it here is that it reads `backends[lev_index]`, which is out of bounds when no backend is registered.
-/

namespace Verif.Ceed

/-- One row of the table `backends`: `interface/ceed.c` 24-28. `init` stands for the function pointer. -/
structure Backend (ι : Type) where
  pre : List Char
  priority : Nat
  init : ι
deriving DecidableEq

/-- `sizeof(backends) / sizeof(backends[0])`: `interface/ceed.c` 28. -/
def maxBackends : Nat := 32
/-- `CEED_MAX_RESOURCE_LEN`: `include/ceed/backend.h` 26. -/
def maxResourceLen : Nat := 1024
/-- `CEED_MAX_BACKEND_PRIORITY`, that is `UINT_MAX`: `include/ceed/backend.h` 27. -/
def maxPriority : Nat := 4294967295

variable {ι : Type}

/-- `CeedRegisterImpl`: `interface/ceed.c` 123-139. Prefixes are cut to fit the table row. -/
def registerImpl (pre : List Char) (init : ι) (priority : Nat) : M (List (Backend ι)) Unit := fun t =>
  if t.length < maxBackends then .ok (t ++ [⟨pre.take (maxResourceLen - 1), priority, init⟩]) ()
  else .err t .major

/-- `CeedRegister`: `interface/ceed.c` 466-470. The return code of `CeedRegisterImpl` is dropped. -/
def register (pre : List Char) (init : ι) (priority : Nat) : M (List (Backend ι)) Unit := fun t =>
  match registerImpl pre init priority t with
  | .ok t' _ => .ok t' ()
  | .err t' _ => .ok t' ()
  | .ub => .ub

/-- A sequence of `CeedRegister` calls, as made by `CeedRegisterAll` (`interface/ceed-register.c` 30-44) and users. -/
def registerAll : List (Backend ι) → M (List (Backend ι)) Unit
  | [] => pure ()
  | b :: bs => do register b.pre b.init b.priority; registerAll bs

/-- The loop `while (prefix[n] && prefix[n] == resource[n + match_help]) n++`: `interface/ceed.c` 1080. -/
def matchLen : List Char → List Char → Nat
  | p :: ps, r :: rs => if p = r then matchLen ps rs + 1 else 0
  | _, _ => 0

/-- The variables `match_len`, `match_priority`, `match_index`; no index stands for `UINT_MAX`. -/
structure Best where
  len : Nat
  priority : Nat
  index : Option Nat

/-- Initial values: `interface/ceed.c` 1047. -/
def Best.start : Best := ⟨0, maxPriority, none⟩

/-- The selection loop: `interface/ceed.c` 1077-1087; `i` is the loop counter. -/
def scan (r : List Char) : List (Backend ι) → Nat → Best → Best
  | [], _, best => best
  | b :: bs, i, best =>
    let n := matchLen b.pre r
    let best' := if best.len < n ∨ (n = best.len ∧ b.priority < best.priority) then ⟨n, b.priority, some i⟩ else best
    scan r bs (i + 1) best'

/-- The loop computing `stem_length`: `interface/ceed.c` 1075-1076. -/
def stemLen : List Char → Nat
  | [] => 0
  | c :: cs => if c = ':' then 0 else stemLen cs + 1

/-- `help_prefix`: `interface/ceed.c` 1054. -/
def helpText : List Char := ['h', 'e', 'l', 'p']

/-- The offset `match_help`: `interface/ceed.c` 1054-1071. -/
def helpOffset (r : List Char) : Nat := if matchLen helpText r = 4 then 5 else 0

/-- `CeedInit` up to the call of the backend's `init`: `interface/ceed.c` 1046-1121, 1223-1224. The value is the row
of the backend called and the string it is called with. -/
def init (t : List (Backend ι)) : Option (List Char) → Res (Nat × List Char)
  | none => .err .major
  | some r =>
    if r.length < helpOffset r then .ub
    else
      let s := r.drop (helpOffset r)
      let best := scan s t 0 Best.start
      if best.len ≤ 1 ∨ best.len ≠ stemLen s then (if t.length = 0 then .ub else .err .major)
      else
        match best.index with
        | none => .ub
        | some i => .ok (i, s)

/-- `CeedGetResourceRoot`: `interface/ceed.c` 501-508. The delineator is located as `strstr` does. -/
def resourceRoot (delineator : List Char) : List Char → List Char
  | [] => []
  | c :: cs => if delineator.isPrefixOf (c :: cs) then [] else c :: resourceRoot delineator cs

/-! ## Exact descriptions -/

theorem matchLen_le_left : ∀ p r : List Char, matchLen p r ≤ p.length
  | [], _ => by simp [matchLen]
  | p :: ps, [] => by simp [matchLen]
  | p :: ps, r :: rs => by
    simp only [matchLen, List.length_cons]
    split
    · have := matchLen_le_left ps rs; omega
    · omega

/-- A text is a common prefix iff it is a prefix of the resource of at most the matched length. -/
theorem matchLen_iff : ∀ (p r q : List Char), (q <+: p ∧ q <+: r) ↔ (q <+: r ∧ q.length ≤ matchLen p r)
  | p, r, [] => by simp
  | [], r, a :: q => by simp [matchLen]
  | p :: ps, [], a :: q => by simp
  | p :: ps, r :: rs, a :: q => by
    simp only [List.cons_prefix_cons, matchLen, List.length_cons]
    have ih := matchLen_iff ps rs q
    by_cases h : p = r
    · rw [if_pos h]
      subst h
      constructor
      · rintro ⟨⟨h1, h2⟩, h3, h4⟩
        exact ⟨⟨h3, h4⟩, by have := (ih.1 ⟨h2, h4⟩).2; omega⟩
      · rintro ⟨⟨h3, h4⟩, h5⟩
        exact ⟨⟨h3, (ih.2 ⟨h4, by omega⟩).1⟩, h3, h4⟩
    · rw [if_neg h]
      constructor
      · rintro ⟨⟨h1, _⟩, h3, _⟩
        exact absurd (h1.symm.trans h3) h
      · rintro ⟨_, h5⟩
        omega

theorem matchLen_common (p r : List Char) : r.take (matchLen p r) <+: p ∧ (r.take (matchLen p r)).length = matchLen p r := by
  induction p generalizing r with
  | nil => simp [matchLen]
  | cons a ps ih =>
    cases r with
    | nil => simp [matchLen]
    | cons c rs =>
      simp only [matchLen]
      by_cases h : a = c
      · simp [h, ih rs, List.cons_prefix_cons]
      · simp [h]

theorem stemLen_eq (r : List Char) : stemLen r = (r.takeWhile (· ≠ ':')).length := by
  induction r with
  | nil => rfl
  | cons c cs ih =>
    by_cases h : c = ':'
    · simp [stemLen, h]
    · simp [stemLen, h, ih]

theorem helpOffset_eq (r : List Char) : helpOffset r = if helpText <+: r then 5 else 0 := by
  have h := matchLen_iff helpText r helpText
  have hl := matchLen_le_left helpText r
  have h4 : helpText.length = 4 := rfl
  unfold helpOffset
  by_cases hp : helpText <+: r
  · have := (h.1 ⟨List.prefix_rfl, hp⟩).2
    rw [if_pos (by omega), if_pos hp]
  · rw [if_neg hp, if_neg]
    intro h5
    apply hp
    have h6 := matchLen_common helpText r
    rw [h5] at h6
    have h7 : List.take 4 r = helpText := h6.1.eq_of_length (by rw [h6.2]; rfl)
    rw [← h7]
    exact List.take_prefix _ _

/-- What the selection loop knows after a part of the table. -/
def Scanned (r : List Char) (t : List (Backend ι)) (best : Best) : Prop :=
  (best.index = none ∧ best.len = 0 ∧ best.priority = maxPriority ∧
    ∀ b ∈ t, matchLen b.pre r = 0 ∧ maxPriority ≤ b.priority) ∨
  ∃ i b, best.index = some i ∧ t[i]? = some b ∧ best.len = matchLen b.pre r ∧ best.priority = b.priority ∧
    ∀ j b', t[j]? = some b' → matchLen b'.pre r < best.len ∨
      (matchLen b'.pre r = best.len ∧ (b.priority < b'.priority ∨ (b.priority = b'.priority ∧ i ≤ j)))

theorem Scanned.step {r : List Char} {t : List (Backend ι)} {best : Best} (h : Scanned r t best) (b : Backend ι) :
    Scanned r (t ++ [b]) (if best.len < matchLen b.pre r ∨ (matchLen b.pre r = best.len ∧ b.priority < best.priority)
      then ⟨matchLen b.pre r, b.priority, some t.length⟩ else best) := by
  by_cases hc : best.len < matchLen b.pre r ∨ (matchLen b.pre r = best.len ∧ b.priority < best.priority)
  · rw [if_pos hc]
    refine Or.inr ⟨t.length, b, rfl, by simp, rfl, rfl, ?_⟩
    intro j b' hj
    dsimp only
    rcases Nat.lt_or_ge j t.length with hlt | hge
    · rw [List.getElem?_append_left hlt] at hj
      rcases h with ⟨_, h2, h3, h4⟩ | ⟨i, c, _, _, h3, h4, h5⟩
      · have := h4 b' (List.mem_of_getElem? hj)
        rcases hc with hc | hc
        · left; omega
        · right
          exact ⟨by omega, Or.inl (by omega)⟩
      · rcases h5 j b' hj with h6 | ⟨h6, h7⟩
        · left
          rcases hc with hc | hc <;> omega
        · rcases hc with hc | hc
          · left; omega
          · right
            exact ⟨by omega, Or.inl (by rcases h7 with h7 | h7 <;> omega)⟩
    · have hj' : j = t.length := by
        by_contra hne
        rw [List.getElem?_eq_none (by simp; omega)] at hj
        exact absurd hj (by simp)
      subst hj'
      simp only [List.getElem?_concat_length, Option.some.injEq] at hj
      subst hj
      exact Or.inr ⟨rfl, Or.inr ⟨rfl, le_refl _⟩⟩
  · rw [if_neg hc]
    rcases h with ⟨h1, h2, h3, h4⟩ | ⟨i, c, h1, h2, h3, h4, h5⟩
    · refine Or.inl ⟨h1, h2, h3, ?_⟩
      intro b' hb'
      rcases List.mem_append.1 hb' with hb' | hb'
      · exact h4 b' hb'
      · rw [List.mem_singleton] at hb'
        subst hb'
        rw [h2, h3] at hc
        constructor
        · by_contra hne
          exact hc (Or.inl (by omega))
        · by_contra hlt
          apply hc
          by_cases h0 : matchLen b'.pre r = 0
          · exact Or.inr ⟨h0, by omega⟩
          · exact Or.inl (by omega)
    · have hi : i < t.length := by
        by_contra hge
        rw [List.getElem?_eq_none (by omega)] at h2
        exact absurd h2 (by simp)
      refine Or.inr ⟨i, c, h1, by rw [List.getElem?_append_left hi]; exact h2, h3, h4, ?_⟩
      intro j b' hj
      rcases Nat.lt_or_ge j t.length with hlt | hge
      · rw [List.getElem?_append_left hlt] at hj
        exact h5 j b' hj
      · have hj' : j = t.length := by
          by_contra hne
          rw [List.getElem?_eq_none (by simp; omega)] at hj
          exact absurd hj (by simp)
        subst hj'
        simp only [List.getElem?_concat_length, Option.some.injEq] at hj
        subst hj
        rw [not_or, not_and] at hc
        obtain ⟨hc1, hc2⟩ := hc
        by_cases hm : matchLen b.pre r = best.len
        · have := hc2 hm
          exact Or.inr ⟨hm, by rw [h4] at this; omega⟩
        · left; omega

theorem scan_scanned (r : List Char) (rest done : List (Backend ι)) (best : Best) (h : Scanned r done best) :
    Scanned r (done ++ rest) (scan r rest done.length best) := by
  induction rest generalizing done best with
  | nil => simpa [scan] using h
  | cons b bs ih =>
    have := ih (done ++ [b]) _ (h.step b)
    simp only [List.length_append, List.length_cons, List.length_nil, Nat.zero_add, List.append_assoc,
      List.cons_append, List.nil_append] at this
    exact this

theorem scan_all (r : List Char) (t : List (Backend ι)) : Scanned r t (scan r t 0 Best.start) := by
  have := scan_scanned r t [] Best.start (Or.inl ⟨rfl, rfl, rfl, by simp⟩)
  simpa using this

end Verif.Ceed
