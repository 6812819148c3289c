import Verif.Ceed.Init

/-!
# C33: backend selection

Specification: the stem of a resource is the part before the first colon. Text `q` is matched by a backend when `q`
begins both its registered prefix and the resource.
-/

namespace Verif.Ceed

variable {ι : Type}

/-- The stem of a resource: the characters before the first colon. -/
def stem (r : List Char) : List Char := r.takeWhile (· ≠ ':')

theorem stem_prefix (r : List Char) : stem r <+: r := List.takeWhile_prefix _

theorem init_of_not_help {t : List (Backend ι)} {r : List Char} (h : ¬ helpText <+: r) :
    init t (some r) =
      if (scan r t 0 Best.start).len ≤ 1 ∨ (scan r t 0 Best.start).len ≠ (stem r).length then
        (if t.length = 0 then .ub else .err .major)
      else
        match (scan r t 0 Best.start).index with
        | none => .ub
        | some i => .ok (i, r) := by
  have h0 : helpOffset r = 0 := by rw [helpOffset_eq, if_neg h]
  simp only [init, h0, Nat.not_lt_zero, if_false, List.drop_zero, stemLen_eq, stem]
  rfl

/-- **C33.** For every table and every resource (not a help request): `CeedInit` calls backend `i`, with the whole
resource, exactly when the stem has at least two characters and begins the prefix of `i`, no backend matches more of
the resource than the stem, and every other backend whose prefix the stem begins has a larger priority number, or the
same one and a later row. -/
theorem C33_select (t : List (Backend ι)) (r : List Char) (h : ¬ helpText <+: r) (i : Nat) (s : List Char) :
    init t (some r) = .ok (i, s) ↔
      s = r ∧ 2 ≤ (stem r).length ∧
      (∀ b ∈ t, ∀ q, q <+: b.pre → q <+: r → q.length ≤ (stem r).length) ∧
      ∃ b, t[i]? = some b ∧ stem r <+: b.pre ∧
        ∀ j b', t[j]? = some b' → stem r <+: b'.pre → b.priority < b'.priority ∨ (b.priority = b'.priority ∧ i ≤ j) := by
  rw [init_of_not_help h]
  have hs := scan_all r t
  generalize hb : scan r t 0 Best.start = best at hs
  have key : ∀ b : Backend ι, stem r <+: b.pre ↔ (stem r).length ≤ matchLen b.pre r := by
    intro b
    have := matchLen_iff b.pre r (stem r)
    constructor
    · intro h1; exact (this.1 ⟨h1, stem_prefix r⟩).2
    · intro h1; exact (this.2 ⟨stem_prefix r, h1⟩).1
  have key2 : ∀ b : Backend ι, (∀ q, q <+: b.pre → q <+: r → q.length ≤ (stem r).length) ↔
      matchLen b.pre r ≤ (stem r).length := by
    intro b
    constructor
    · intro h1
      have h2 := matchLen_common b.pre r
      have := h1 _ h2.1 (List.take_prefix _ _)
      omega
    · intro h1 q h2 h3
      have := ((matchLen_iff b.pre r q).1 ⟨h2, h3⟩).2
      omega
  simp only [key, key2]
  rcases hs with ⟨h1, h2, h3, h4⟩ | ⟨k, c, h1, h2, h3, h4, h5⟩
  · rw [if_pos (Or.inl (by omega))]
    constructor
    · intro hc
      split at hc <;> simp at hc
    · rintro ⟨_, hl, hm, b, hb1, hb2, _⟩
      have := h4 b (List.mem_of_getElem? hb1)
      omega
  · by_cases hc : best.len ≤ 1 ∨ best.len ≠ (stem r).length
    · rw [if_pos hc]
      constructor
      · intro hc
        split at hc <;> simp at hc
      · rintro ⟨_, hl, hm, b, hb1, hb2, _⟩
        have e1 := hm c (List.mem_of_getElem? h2)
        have e2 := h5 i b hb1
        omega
    · rw [if_neg hc, h1]
      simp only [Res.ok.injEq, Prod.mk.injEq]
      constructor
      · rintro ⟨rfl, rfl⟩
        refine ⟨rfl, by omega, ?_, c, h2, by omega, ?_⟩
        · intro b hb1
          obtain ⟨j, hj⟩ := List.mem_iff_getElem?.1 hb1
          have := h5 j b hj
          omega
        · intro j b' hj hm
          have := h5 j b' hj
          omega
      · rintro ⟨rfl, hl, hm, b, hb1, hb2, hb3⟩
        refine ⟨?_, rfl⟩
        have e1 := h5 i b hb1
        have e2 := hb3 k c h2 (by omega)
        have e3 := hm b (List.mem_of_getElem? hb1)
        omega

/-- **C33.** When no registered prefix contains a colon, the backend called is the one of best priority, the first
registered among equals, whose prefix begins with the stem. -/
theorem C33_select_plain (t : List (Backend ι)) (hcolon : ∀ b ∈ t, ':' ∉ b.pre) (r : List Char) (h : ¬ helpText <+: r)
    (i : Nat) (s : List Char) :
    init t (some r) = .ok (i, s) ↔
      s = r ∧ 2 ≤ (stem r).length ∧
      ∃ b, t[i]? = some b ∧ stem r <+: b.pre ∧
        ∀ j b', t[j]? = some b' → stem r <+: b'.pre → b.priority < b'.priority ∨ (b.priority = b'.priority ∧ i ≤ j) := by
  rw [C33_select t r h i s]
  have : ∀ b ∈ t, ∀ q, q <+: b.pre → q <+: r → q.length ≤ (stem r).length := by
    intro b hb q hq1 hq2
    have hq : ':' ∉ q := fun hm => hcolon b hb (hq1.subset hm)
    obtain ⟨u, rfl⟩ := hq2
    have : stem (q ++ u) = q ++ u.takeWhile (· ≠ ':') := by
      unfold stem
      rw [List.takeWhile_append_of_pos]
      intro a ha
      simp only [ne_eq, decide_not, Bool.not_eq_eq_eq_not, Bool.not_true, decide_eq_false_iff_not]
      rintro rfl
      exact hq ha
    rw [this, List.length_append]
    omega
  tauto

/-- **C33.** `CeedInit` returns an error, and calls no backend, exactly when the stem is not fully matched (or has
fewer than two characters), or some prefix matches past the colon. Some backend is registered. -/
theorem C33_fails (t : List (Backend ι)) (ht : t ≠ []) (r : List Char) (h : ¬ helpText <+: r) :
    init t (some r) = .err .major ↔
      (stem r).length < 2 ∨ (∀ b ∈ t, ¬ stem r <+: b.pre) ∨
      ∃ b ∈ t, ∃ q, q <+: b.pre ∧ q <+: r ∧ (stem r).length < q.length := by
  have ht' : t.length ≠ 0 := by simpa using ht
  have hdef : init t (some r) = .err .major ∨ ∃ i s, init t (some r) = .ok (i, s) := by
    rw [init_of_not_help h]
    have hs := scan_all r t
    generalize hb : scan r t 0 Best.start = best at hs
    by_cases hc : best.len ≤ 1 ∨ best.len ≠ (stem r).length
    · left; rw [if_pos hc, if_neg ht']
    · right
      rw [if_neg hc]
      rcases hs with ⟨h1, h2, h3, h4⟩ | ⟨k, c, h1, h2, h3, h4, h5⟩
      · omega
      · rw [h1]; exact ⟨k, r, rfl⟩
  constructor
  · intro he
    by_contra hn
    rw [not_or, not_or] at hn
    obtain ⟨h1, h2, h3⟩ := hn
    simp only [not_forall, not_not] at h2
    obtain ⟨b, hb, hbs⟩ := h2
    -- the candidate that the loop would choose
    have hs := scan_all r t
    rw [init_of_not_help h] at he
    generalize hbe : scan r t 0 Best.start = best at hs he
    rcases hs with ⟨k1, k2, k3, k4⟩ | ⟨k, c, k1, k2, k3, k4, k5⟩
    · have := ((matchLen_iff b.pre r _).1 ⟨hbs, stem_prefix r⟩).2
      have := k4 b hb
      omega
    · have e1 := ((matchLen_iff b.pre r _).1 ⟨hbs, stem_prefix r⟩).2
      obtain ⟨j, hj⟩ := List.mem_iff_getElem?.1 hb
      have e2 := k5 j b hj
      have e3 : best.len ≤ (stem r).length := by
        by_contra hlt
        have h2 := matchLen_common c.pre r
        exact h3 ⟨c, List.mem_of_getElem? k2, _, h2.1, List.take_prefix _ _, by omega⟩
      rw [if_neg (by omega), k1] at he
      simp at he
  · intro hcase
    rcases hdef with he | ⟨i, s, hok⟩
    · exact he
    · exfalso
      obtain ⟨_, e1, e2, b, e3, e4, _⟩ := (C33_select t r h i s).1 hok
      rcases hcase with hc | hc | ⟨b', hb', q, q1, q2, q3⟩
      · omega
      · exact hc b (List.mem_of_getElem? e3) e4
      · have := e2 b' hb' q q1 q2
        omega

/-- **C33.** The backend called does not depend on the order of registration: if, among the backends whose prefix
begins with the stem, equal priority means the same entry, any reordering of the table leads to the same entry. -/
theorem C33_order {t t' : List (Backend ι)} (hp : t.Perm t') (r : List Char) (h : ¬ helpText <+: r)
    (hd : ∀ b ∈ t, ∀ b' ∈ t, stem r <+: b.pre → stem r <+: b'.pre → b.priority = b'.priority → b = b')
    {i : Nat} {s : List Char} (hok : init t (some r) = .ok (i, s)) :
    ∃ i', init t' (some r) = .ok (i', s) ∧ t'[i']? = t[i]? := by
  obtain ⟨rfl, e1, e2, b, e3, e4, e5⟩ := (C33_select t r h i s).1 hok
  have hne : t ≠ [] := by rintro rfl; simp at e3
  have hne' : t' ≠ [] := by rintro rfl; exact hne hp.eq_nil
  have hb : b ∈ t := List.mem_of_getElem? e3
  have hfail := (C33_fails t' hne' s h).not.2 (by
    rintro (hc | hc | ⟨b', hb', q, q1, q2, q3⟩)
    · omega
    · exact hc b (hp.subset hb) e4
    · have := e2 b' (hp.symm.subset hb') q q1 q2
      omega)
  have hdef : ∃ i' s', init t' (some s) = .ok (i', s') := by
    rw [init_of_not_help h] at hfail ⊢
    have ht' : t'.length ≠ 0 := by simpa using hne'
    have hs := scan_all s t'
    generalize hbe : scan s t' 0 Best.start = best at hs hfail ⊢
    by_cases hc : best.len ≤ 1 ∨ best.len ≠ (stem s).length
    · rw [if_pos hc, if_neg ht'] at hfail
      exact absurd rfl hfail
    · rw [if_neg hc]
      rcases hs with ⟨h1, h2, h3, h4⟩ | ⟨k, c, h1, h2, h3, h4, h5⟩
      · omega
      · rw [h1]; exact ⟨k, s, rfl⟩
  obtain ⟨i', s', hok'⟩ := hdef
  obtain ⟨rfl, f1, f2, c, f3, f4, f5⟩ := (C33_select t' s h i' s').1 hok'
  refine ⟨i', hok', ?_⟩
  rw [f3, e3]
  have hc : c ∈ t := hp.symm.subset (List.mem_of_getElem? f3)
  congr 1
  obtain ⟨j, hj⟩ := List.mem_iff_getElem?.1 hc
  obtain ⟨j', hj'⟩ := List.mem_iff_getElem?.1 (hp.subset hb)
  have a1 := e5 j c hj f4
  have a2 := f5 j' b hj' e4
  exact hd c hc b hb f4 e4 (by omega)

/-- **C33.** A help request `"help?<resource>"`, with any one delimiting character, selects as `<resource>` does. -/
theorem C33_help (t : List (Backend ι)) (c : Char) (r : List Char) (h : ¬ helpText <+: r) :
    init t (some (helpText ++ c :: r)) = init t (some r) := by
  have h5 : helpOffset (helpText ++ c :: r) = 5 := by rw [helpOffset_eq, if_pos (List.prefix_append _ _)]
  have h0 : helpOffset r = 0 := by rw [helpOffset_eq, if_neg h]
  have hd : List.drop 5 (helpText ++ c :: r) = r := rfl
  have hl : ¬ (helpText ++ c :: r).length < 5 := by simp [helpText]
  simp only [init, h5, h0, hd, hl, if_false, Nat.not_lt_zero, List.drop_zero]

/-- **C33.** `CeedInit` with no resource is an error. -/
theorem C33_null (t : List (Backend ι)) : init t none = .err .major := rfl

/-- **C33.** `CeedInit` has no undefined behaviour when some backend is registered and the resource is not the bare
word `help` (see `C33_help_witness` and `C33_empty_witness` for the other two cases). -/
theorem C33_defined (t : List (Backend ι)) (ht : t ≠ []) (r : List Char) (hr : r ≠ helpText) :
    init t (some r) ≠ .ub := by
  have ht' : t.length ≠ 0 := by simpa using ht
  have hlen : ¬ r.length < helpOffset r := by
    rw [helpOffset_eq]
    split
    · rename_i hp
      obtain ⟨u, rfl⟩ := hp
      have : u ≠ [] := by rintro rfl; exact hr (by simp)
      have := List.length_pos_of_ne_nil this
      simp [helpText]; omega
    · omega
  simp only [init, hlen, if_false]
  have hs := scan_all (r.drop (helpOffset r)) t
  generalize hbe : scan (r.drop (helpOffset r)) t 0 Best.start = best at hs ⊢
  by_cases hc : best.len ≤ 1 ∨ best.len ≠ stemLen (r.drop (helpOffset r))
  · rw [if_pos hc, if_neg ht']
    simp
  · rw [if_neg hc]
    rcases hs with ⟨h1, h2, h3, h4⟩ | ⟨k, c, h1, h2, h3, h4, h5⟩
    · omega
    · rw [h1]; simp

/-- **C33, disagreement.** `CeedInit("help")` reads past the end of the string it is given. -/
theorem C33_help_witness (t : List (Backend ι)) : init t (some helpText) = .ub := by
  have h5 : helpOffset helpText = 5 := rfl
  have h4 : helpText.length = 4 := rfl
  simp only [init, h5, h4]
  rfl

/-- **C33, disagreement.** With no backend registered `CeedInit` reads outside the table while writing its message. -/
theorem C33_empty_witness (r : List Char) : init ([] : List (Backend ι)) (some r) = .ub := by
  simp [init, scan, Best.start]

/-- **C33, disagreement.** A backend whose prefix has a colon hides a backend that matches the whole stem: both are
registered, `/a/b` matches the stem of `/a/b:c` fully, yet `CeedInit` fails. -/
theorem C33_colon_witness :
    init [⟨['/', 'a', '/', 'b'], 1, 0⟩, (⟨['/', 'a', '/', 'b', ':', 'c'], 2, 1⟩ : Backend Nat)]
      (some ['/', 'a', '/', 'b', ':', 'c']) = .err .major ∧
    init [(⟨['/', 'a', '/', 'b'], 1, 0⟩ : Backend Nat)] (some ['/', 'a', '/', 'b', ':', 'c']) =
      .ok (0, ['/', 'a', '/', 'b', ':', 'c']) := by
  constructor <;> decide

/-! ### Registration -/

theorem register_short {t : List (Backend ι)} {pre : List Char} {x : ι} {p : Nat} (ht : t.length < 32)
    (hp : pre.length < 1024) : register pre x p t = .ok (t ++ [⟨pre, p, x⟩]) () := by
  have : List.take 1023 pre = pre := List.take_of_length_le (by omega)
  simp [register, registerImpl, maxBackends, maxResourceLen, ht, this]

/-- **C33.** Any sequence of registrations that fits the table (32 rows) with prefixes of fewer than 1024 characters
leaves exactly those backends, in order. -/
theorem C33_register (bs t : List (Backend ι)) (hn : t.length + bs.length ≤ 32) (hp : ∀ b ∈ bs, b.pre.length < 1024) :
    registerAll bs t = .ok (t ++ bs) () := by
  induction bs generalizing t with
  | nil => simp [registerAll]
  | cons b bs ih =>
    simp only [List.length_cons] at hn
    simp only [registerAll, M.bind_apply]
    rw [register_short (by omega) (hp b (by simp))]
    simp only [Out.bind_ok]
    rw [ih (t ++ [b]) (by simp; omega) (fun c hc => hp c (by simp [hc]))]
    simp

/-- **C33, disagreement.** With a full table `CeedRegister` reports success and registers nothing. -/
theorem C33_full_witness (t : List (Backend ι)) (ht : t.length = 32) (pre : List Char) (x : ι) (p : Nat) :
    register pre x p t = .ok t () := by
  simp [register, registerImpl, maxBackends, ht]

/-- **C33.** `CeedRegister` never returns an error and never removes or changes a registered backend. -/
theorem C33_register_keeps (t : List (Backend ι)) (pre : List Char) (x : ι) (p : Nat) :
    ∃ t', register pre x p t = .ok t' () ∧ t <+: t' := by
  by_cases h : t.length < 32
  · exact ⟨_, by simp [register, registerImpl, maxBackends, h]; rfl, List.prefix_append _ _⟩
  · exact ⟨t, by simp [register, registerImpl, maxBackends, h], List.prefix_rfl⟩

/-- **C33.** The root of a resource is the resource up to the first delineator: nothing is lost or reordered, the
delineator does not begin anywhere inside it, and what is cut off is empty or begins with the delineator. -/
theorem C33_resource_root (d r : List Char) :
    ∃ u, r = resourceRoot d r ++ u ∧ (u = [] ∨ d <+: u) ∧
      ∀ v w, resourceRoot d r = v ++ w → w ≠ [] → ¬ d <+: w ++ u := by
  induction r with
  | nil => exact ⟨[], by simp [resourceRoot], Or.inl rfl, by
      intro v w h hw; simp [resourceRoot] at h; exact absurd h.2 hw⟩
  | cons c cs ih =>
    by_cases hc : d.isPrefixOf (c :: cs)
    · have hc' : d <+: c :: cs := List.isPrefixOf_iff_prefix.1 hc
      refine ⟨c :: cs, by simp [resourceRoot, hc], Or.inr hc', ?_⟩
      intro v w h hw
      simp [resourceRoot, hc] at h
      exact absurd h.2 hw
    · obtain ⟨u, h1, h2, h3⟩ := ih
      have hc' : ¬ d <+: c :: cs := fun h => hc (List.isPrefixOf_iff_prefix.2 h)
      refine ⟨u, by simp only [resourceRoot, hc]; simpa using h1, h2, ?_⟩
      intro v w h hw
      simp only [resourceRoot, hc, if_false, Bool.false_eq_true] at h
      cases v with
      | nil =>
        simp only [List.nil_append] at h
        rw [← h, List.cons_append, ← h1]
        exact hc'
      | cons a v =>
        simp only [List.cons_append, List.cons.injEq] at h
        exact h3 v w h.2 hw

/-! ### Concrete cases -/

/-- A small table: `/cpu/self/ref`, `/cpu/self/opt`, `/gpu/cuda`. -/
def exTable : List (Backend Nat) :=
  [⟨"/cpu/self/ref".toList, 50, 0⟩, ⟨"/cpu/self/opt".toList, 45, 1⟩, ⟨"/gpu/cuda".toList, 20, 2⟩]

/-- `/cpu/self` reaches the backend of best priority, row 1. -/
example : init exTable (some "/cpu/self".toList) = .ok (1, "/cpu/self".toList) := by decide
/-- The part after the colon takes no part in the choice. -/
example : init exTable (some "/gpu/cuda:device_id=1".toList) = .ok (2, "/gpu/cuda:device_id=1".toList) := by decide
/-- A stem longer than any prefix fails. -/
example : init exTable (some "/gpu/cuda/ref".toList) = .err .major := by decide
/-- A help request. -/
example : init exTable (some "help:/cpu/self/ref".toList) = .ok (0, "/cpu/self/ref".toList) := by decide
/-- The hypotheses of `C33_select_plain` and `C33_order` hold for `exTable`. -/
example : (∀ b ∈ exTable, ':' ∉ b.pre) ∧ ¬ helpText <+: "/cpu/self".toList ∧
    (∀ b ∈ exTable, ∀ b' ∈ exTable, b.priority = b'.priority → b = b') := by decide
/-- Registering the rows gives the table. -/
example : registerAll exTable [] = .ok exTable () := C33_register exTable [] (by decide) (by decide)

end Verif.Ceed
