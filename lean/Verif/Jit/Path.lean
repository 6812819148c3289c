import Verif.Jit.Model

/-!
# Normalised paths

Specification: an absolute path is a list of names, written with a slash before each. Going through the list, `.` stays where it is and `..`
goes to the parent.
-/

namespace Verif
namespace Jit

/-- The path with these names. -/
def joinPath (cs : List Str) : Str := cs.flatMap ('/' :: ·)

/-- A name between slashes. -/
def Name (c : Str) : Prop := c ≠ [] ∧ '/' ∉ c

/-- Where the names lead, starting from the directory `st` (innermost first). The last name is that of the file. Leaving the root is `ub`; the
code refuses to leave a directory of the root. -/
def resolve : List Str → List Str → Res (List Str)
  | st, [] => .ok st.reverse
  | st, [c] => .ok (c :: st).reverse
  | st, c :: d :: cs =>
    if c = ".".toList then resolve st (d :: cs)
    else if c = "..".toList then
      match st with
      | [] => .ub
      | [_] => .err .major
      | _ :: b :: r => resolve (b :: r) (d :: cs)
    else resolve (c :: st) (d :: cs)

theorem strchr_append {A B : Str} {c : Char} (h : c ∉ A) : strchr (A ++ B) c = strchr B c := by
  induction A with
  | nil => rfl
  | cons x A ih =>
    show (if x = c then _ else strchr (A ++ B) c) = _
    rw [if_neg fun hx => h (by rw [hx]; exact List.mem_cons_self), ih fun hx => h (List.mem_cons_of_mem _ hx)]

theorem strchr_none {A : Str} {c : Char} (h : c ∉ A) : strchr A c = none := by
  have := strchr_append (A := A) (B := []) h
  rw [List.append_nil] at this
  rw [this]
  rfl

theorem strchr_at {A B : Str} {c : Char} (h : c ∉ A) : strchr (A ++ c :: B) c = some (c :: B) := by
  rw [strchr_append h]
  exact if_pos rfl

theorem normLoop_nil {k : Nat} {A : Str} : normLoop (k + 1) A A.length = .ok A := by
  rw [normLoop, List.drop_length]
  rfl

theorem normLoop_skip {k : Nat} {A B : Str} {x : Char} (hx : x ≠ '.') : normLoop k (A ++ x :: B) A.length = normLoop k (A ++ x :: B) (A.length + 1) := by
  cases k with
  | zero => rfl
  | succ k =>
    have e : strchr ((A ++ x :: B).drop A.length) '.' = strchr ((A ++ x :: B).drop (A.length + 1)) '.' := by
      rw [List.drop_left, show A.length + 1 = (A ++ [x]).length by simp, show A ++ x :: B = (A ++ [x]) ++ B by simp, List.drop_left]
      exact if_neg hx
    rw [normLoop, normLoop, e]

/-- The iteration at a dot. -/
theorem normLoop_dot {k : Nat} {A B : Str} : normLoop (k + 1) (A ++ '.' :: B) A.length =
    if 0 < A.length ∧ 2 < B.length + 1 ∧ ((A ++ '.' :: B).drop (A.length - 1)).take 3 = "/./".toList then normLoop k (A ++ B.drop 1) A.length
    else if 0 < A.length ∧ 3 < B.length + 1 ∧ ((A ++ '.' :: B).drop (A.length - 1)).take 4 = "/../".toList then
      if A.length = 1 then .ub
      else if backTo (A ++ '.' :: B) (A.length - 2) = 0 then .err .major
      else normLoop k ((A ++ '.' :: B).take (backTo (A ++ '.' :: B) (A.length - 2)) ++ B.drop 1) (backTo (A ++ '.' :: B) (A.length - 2))
    else normLoop k (A ++ '.' :: B) (A.length + 1) := by
  have e : strchr ((A ++ '.' :: B).drop A.length) '.' = some ('.' :: B) := by
    rw [List.drop_left]
    exact if_pos rfl
  have hi : (A ++ '.' :: B).length - ('.' :: B).length = A.length := by simp
  have h2 : (A ++ '.' :: B).drop (A.length + 2) = B.drop 1 := by
    rw [show A.length + 2 = (A ++ ['.']).length + 1 by simp, show A ++ '.' :: B = (A ++ ['.']) ++ B by simp, ← List.drop_drop, List.drop_left]
  rw [normLoop, e]
  simp only [hi, h2, List.take_left]
  rfl

theorem backTo_eq {P c R : Str} (hc : '/' ∉ c) : backTo (P ++ '/' :: (c ++ R)) (P.length + c.length) = P.length := by
  induction c using List.reverseRecOn generalizing R with
  | nil =>
    cases hP : P.length with
    | zero => rfl
    | succ n =>
      show (if (P ++ '/' :: ([] ++ R))[n + 1]? = some '/' then n + 1 else _) = _
      rw [if_pos]
      rw [← hP, List.getElem?_append_right (le_refl _)]
      simp
  | append_singleton c x ih =>
    have hx : x ≠ '/' := fun h => hc (by rw [h]; simp)
    have := ih (R := x :: R) fun h => hc (by simp [h])
    rw [show P.length + (c ++ [x]).length = P.length + c.length + 1 by simp; omega, List.append_assoc, List.singleton_append]
    show (if (P ++ '/' :: (c ++ x :: R))[P.length + c.length + 1]? = some '/' then _ else backTo _ (P.length + c.length)) = _
    rw [if_neg, this]
    have : (P ++ '/' :: (c ++ x :: R))[P.length + c.length + 1]? = some x := by
      rw [show P ++ '/' :: (c ++ x :: R) = (P ++ '/' :: c) ++ x :: R by simp, List.getElem?_append_right (by simp; omega)]
      simp
    rw [this]
    exact fun h => hx (Option.some.inj h)

/-- The part of a string before a character that it does not contain. -/
theorem split_slash {c R : Str} (hc : '/' ∉ c) (hR : R = [] ∨ R.head? = some '/') {l : Str} (hl : '/' ∉ l) {m : Str} (h : c ++ R = l ++ '/' :: m) : c = l := by
  induction c generalizing l with
  | nil =>
    cases l with
    | nil => rfl
    | cons y l =>
      rcases hR with hR | hR
      · rw [hR] at h; simp at h
      · cases R with
        | nil => simp at h
        | cons z R =>
          simp at hR h
          exact absurd (by rw [← h.1, hR]; simp) hl
  | cons y c ih =>
    cases l with
    | nil =>
      simp at h
      exact absurd (by rw [h.1]; simp) hc
    | cons z l =>
      simp at h
      rw [h.1, ih (fun hx => hc (List.mem_cons_of_mem _ hx)) (fun hx => hl (List.mem_cons_of_mem _ hx)) h.2]

/-- The search passes over the rest `c2` of a name that is not special. -/
theorem normLoop_name {P c1 c2 R : Str} (hc : '/' ∉ c1 ++ c2) (hR : R = [] ∨ R.head? = some '/') (hs : R ≠ [] → c1 ++ c2 ≠ ".".toList ∧ c1 ++ c2 ≠ "..".toList)
    {target : Res Str} {m : Nat} (h : ∀ k, m ≤ k → normLoop k (P ++ '/' :: (c1 ++ c2 ++ R)) (P.length + 1 + (c1 ++ c2).length) = target) :
    ∀ k, m + c2.length ≤ k → normLoop k (P ++ '/' :: (c1 ++ c2 ++ R)) (P.length + 1 + c1.length) = target := by
  induction c2 generalizing c1 with
  | nil =>
    intro k hk
    have := h k (by simpa using hk)
    simpa using this
  | cons x c2 ih =>
    intro k hk
    have e : c1 ++ x :: c2 = (c1 ++ [x]) ++ c2 := by simp
    rw [e] at hc hs h ⊢
    have hstr : P ++ '/' :: (c1 ++ [x] ++ c2 ++ R) = (P ++ '/' :: c1) ++ x :: (c2 ++ R) := by simp
    have hlen : P.length + 1 + c1.length = (P ++ '/' :: c1).length := by simp; omega
    have hlen' : (P ++ '/' :: c1).length + 1 = P.length + 1 + (c1 ++ [x]).length := by simp; omega
    have next := ih (c1 := c1 ++ [x]) hc hs h
    by_cases hx : x = '.'
    · subst hx
      obtain ⟨k, rfl⟩ : ∃ k', k = k' + 1 := ⟨k - 1, by simp at hk; omega⟩
      have nx := next k (by simp at hk; omega)
      rw [hstr, hlen, normLoop_dot, if_neg, if_neg]
      · rw [hlen', ← hstr]
        exact nx
      · rintro ⟨h1, h2, h3⟩
        rcases List.eq_nil_or_concat' c1 with rfl | ⟨c, y, rfl⟩
        · have hd : ((P ++ '/' :: []) ++ '.' :: (c2 ++ R)).drop ((P ++ '/' :: ([] : Str)).length - 1) = '/' :: '.' :: (c2 ++ R) := by
            rw [show (P ++ '/' :: ([] : Str)).length - 1 = P.length by simp, show (P ++ '/' :: ([] : Str)) ++ '.' :: (c2 ++ R) = P ++ '/' :: '.' :: (c2 ++ R) by simp, List.drop_left]
          rw [hd] at h3
          obtain ⟨m, hm⟩ : ∃ m, c2 ++ R = '.' :: '/' :: m := by
            revert h3
            rcases c2 ++ R with _ | ⟨a, _ | ⟨b, m⟩⟩ <;> simp
          by_cases hRn : R = []
          · rw [hRn, List.append_nil] at hm
            exact hc (by rw [hm]; simp)
          · have := split_slash (c := c2) (l := ['.']) (R := R) (fun hh => hc (by simp [hh])) hR (by simp) hm
            exact (hs hRn).2 (by rw [this]; rfl)
        · have hd : ((P ++ '/' :: (c ++ [y])) ++ '.' :: (c2 ++ R)).drop ((P ++ '/' :: (c ++ [y])).length - 1) = y :: '.' :: (c2 ++ R) := by
            rw [show (P ++ '/' :: (c ++ [y])).length - 1 = (P ++ '/' :: c).length by simp, show (P ++ '/' :: (c ++ [y])) ++ '.' :: (c2 ++ R) = (P ++ '/' :: c) ++ y :: '.' :: (c2 ++ R) by simp, List.drop_left]
          rw [hd] at h3
          have : y = '/' := by simp at h3; exact h3.1
          exact hc (by simp [this])
      · rintro ⟨h1, h2, h3⟩
        rcases List.eq_nil_or_concat' c1 with rfl | ⟨c, y, rfl⟩
        · have hd : ((P ++ '/' :: []) ++ '.' :: (c2 ++ R)).drop ((P ++ '/' :: ([] : Str)).length - 1) = '/' :: '.' :: (c2 ++ R) := by
            rw [show (P ++ '/' :: ([] : Str)).length - 1 = P.length by simp, show (P ++ '/' :: ([] : Str)) ++ '.' :: (c2 ++ R) = P ++ '/' :: '.' :: (c2 ++ R) by simp, List.drop_left]
          rw [hd] at h3
          obtain ⟨m, hm⟩ : ∃ m, c2 ++ R = '/' :: m := by
            revert h3
            rcases c2 ++ R with _ | ⟨a, m⟩ <;> simp
          by_cases hRn : R = []
          · rw [hRn, List.append_nil] at hm
            exact hc (by rw [hm]; simp)
          · have := split_slash (c := c2) (l := []) (R := R) (fun hh => hc (by simp [hh])) hR (by simp) hm
            exact (hs hRn).1 (by rw [this]; rfl)
        · have hd : ((P ++ '/' :: (c ++ [y])) ++ '.' :: (c2 ++ R)).drop ((P ++ '/' :: (c ++ [y])).length - 1) = y :: '.' :: (c2 ++ R) := by
            rw [show (P ++ '/' :: (c ++ [y])).length - 1 = (P ++ '/' :: c).length by simp, show (P ++ '/' :: (c ++ [y])) ++ '.' :: (c2 ++ R) = (P ++ '/' :: c) ++ y :: '.' :: (c2 ++ R) by simp, List.drop_left]
          rw [hd] at h3
          have : y = '/' := by simp at h3; exact h3.1
          exact hc (by simp [this])
    · rw [hstr, hlen, normLoop_skip hx, hlen', ← hstr]
      exact next k (by simp at hk; omega)

theorem joinPath_append (a b : List Str) : joinPath (a ++ b) = joinPath a ++ joinPath b := by simp [joinPath]

theorem joinPath_head {c : Str} {cs : List Str} : joinPath (c :: cs) = '/' :: (c ++ joinPath cs) := by simp [joinPath]

theorem joinPath_rest (cs : List Str) : joinPath cs = [] ∨ (joinPath cs).head? = some '/' := by
  cases cs with
  | nil => exact .inl rfl
  | cons c cs => exact .inr (by rw [joinPath_head]; rfl)

theorem normLoop_resolve (cs : List Str) : ∀ st : List Str, (∀ c ∈ cs, Name c) → (∀ c ∈ st, Name c) →
    ∀ k, 2 * (joinPath cs).length + 1 + (joinPath st).length ≤ k →
      normLoop k (joinPath st.reverse ++ joinPath cs) (joinPath st.reverse).length = (resolve st cs >>= fun r => .ok (joinPath r)) := by
  have hlast : ∀ st : List Str, ∀ c, Name c → ∀ k, 2 * (joinPath [c]).length + 1 ≤ k →
      normLoop k (joinPath st.reverse ++ joinPath [c]) (joinPath st.reverse).length = .ok (joinPath (c :: st).reverse) := by
    intro st c hc k hk
    have e : joinPath (c :: st).reverse = joinPath st.reverse ++ '/' :: (c ++ []) := by rw [List.reverse_cons, joinPath_append]; simp [joinPath]
    have e2 : joinPath st.reverse ++ joinPath [c] = joinPath st.reverse ++ '/' :: (c ++ []) := by simp [joinPath]
    rw [e, e2, normLoop_skip (by decide)]
    have := normLoop_name (P := joinPath st.reverse) (c1 := []) (c2 := c) (R := []) (by simpa using hc.2) (.inl rfl) (fun h => absurd rfl h) (m := 1)
      (target := .ok (joinPath st.reverse ++ '/' :: (c ++ []))) (by
        intro k hk
        obtain ⟨k, rfl⟩ : ∃ k', k = k' + 1 := ⟨k - 1, by omega⟩
        have : joinPath st.reverse ++ '/' :: ([] ++ c ++ []) = joinPath st.reverse ++ '/' :: (c ++ []) := by simp
        rw [this]
        have hl : (joinPath st.reverse).length + 1 + ([] ++ c).length = (joinPath st.reverse ++ '/' :: (c ++ [])).length := by simp; omega
        rw [hl, normLoop_nil])
    have h2 := this k (by simp [joinPath] at hk; omega)
    simpa using h2
  induction cs with
  | nil =>
    intro st _ _ k hk
    obtain ⟨k, rfl⟩ : ∃ k', k = k' + 1 := ⟨k - 1, by omega⟩
    have : joinPath st.reverse ++ joinPath [] = joinPath st.reverse := by simp [joinPath]
    rw [this, normLoop_nil]
    rfl
  | cons c cs ih =>
    intro st hcs hst k hk
    cases cs with
    | nil =>
      rw [hlast st c (hcs c (by simp)) k (by omega)]
      rfl
    | cons d cs =>
      have hc := hcs c (by simp)
      have hcs' : ∀ c ∈ d :: cs, Name c := fun x hx => hcs x (by simp at hx ⊢; tauto)
      rw [joinPath_head] at hk ⊢
      unfold resolve
      by_cases h1 : c = ".".toList
      · rw [if_pos h1]
        subst h1
        rw [normLoop_skip (by decide)]
        obtain ⟨k, rfl⟩ : ∃ k', k = k' + 1 := ⟨k - 1, by omega⟩
        have es : joinPath st.reverse ++ '/' :: (".".toList ++ joinPath (d :: cs)) = (joinPath st.reverse ++ ['/']) ++ '.' :: joinPath (d :: cs) := by simp
        have el : (joinPath st.reverse).length + 1 = (joinPath st.reverse ++ ['/']).length := by simp
        rw [es, el, normLoop_dot, if_pos]
        · have : (joinPath st.reverse ++ ['/']) ++ (joinPath (d :: cs)).drop 1 = joinPath st.reverse ++ joinPath (d :: cs) := by rw [joinPath_head]; simp
          rw [this, ← el]
          have h := ih st hcs' hst k (by simp at hk; omega)
          rw [← h]
          rw [joinPath_head]
          exact (normLoop_skip (by decide)).symm
        · refine ⟨by simp, ?_, ?_⟩
          · rw [joinPath_head]
            have := (hcs' d (by simp)).1
            cases d with
            | nil => exact absurd rfl this
            | cons y d => simp
          · rw [← el, Nat.add_sub_cancel, show (joinPath st.reverse ++ ['/']) ++ '.' :: joinPath (d :: cs) = joinPath st.reverse ++ '/' :: '.' :: joinPath (d :: cs) by simp, List.drop_left, joinPath_head]
            rfl
      · rw [if_neg h1]
        by_cases h2 : c = "..".toList
        · rw [if_pos h2]
          subst h2
          rw [normLoop_skip (by decide)]
          obtain ⟨k, rfl⟩ : ∃ k', k = k' + 1 := ⟨k - 1, by omega⟩
          have es : joinPath st.reverse ++ '/' :: ("..".toList ++ joinPath (d :: cs)) = (joinPath st.reverse ++ ['/']) ++ '.' :: ('.' :: joinPath (d :: cs)) := by simp
          have el : (joinPath st.reverse).length + 1 = (joinPath st.reverse ++ ['/']).length := by simp
          have hdr : ((joinPath st.reverse ++ ['/']) ++ '.' :: ('.' :: joinPath (d :: cs))).drop ((joinPath st.reverse ++ ['/']).length - 1) = '/' :: '.' :: '.' :: joinPath (d :: cs) := by
            rw [← el, Nat.add_sub_cancel, show (joinPath st.reverse ++ ['/']) ++ '.' :: ('.' :: joinPath (d :: cs)) = joinPath st.reverse ++ '/' :: '.' :: '.' :: joinPath (d :: cs) by simp, List.drop_left]
          rw [es, el, normLoop_dot, if_neg, if_pos]
          · cases st with
            | nil => rfl
            | cons a st =>
              have ha := hst a (by simp)
              have eP : joinPath (a :: st).reverse = joinPath st.reverse ++ '/' :: a := by rw [List.reverse_cons, joinPath_append]; simp [joinPath]
              have hb : backTo ((joinPath (a :: st).reverse ++ ['/']) ++ '.' :: ('.' :: joinPath (d :: cs))) ((joinPath (a :: st).reverse ++ ['/']).length - 2) = (joinPath st.reverse).length := by
                have := backTo_eq (P := joinPath st.reverse) (c := a) (R := '/' :: '.' :: '.' :: joinPath (d :: cs)) ha.2
                rw [show (joinPath (a :: st).reverse ++ ['/']).length - 2 = (joinPath st.reverse).length + a.length by rw [eP]; simp; omega, eP]
                have e3 : ((joinPath st.reverse ++ '/' :: a) ++ ['/']) ++ '.' :: ('.' :: joinPath (d :: cs)) = joinPath st.reverse ++ '/' :: (a ++ '/' :: '.' :: '.' :: joinPath (d :: cs)) := by simp
                rw [e3]
                exact this
              have ha1 : (joinPath (a :: st).reverse ++ ['/']).length ≠ 1 := by rw [eP]; simp; omega
              rw [if_neg ha1, hb]
              cases st with
              | nil => rfl
              | cons b r =>
                have hb0 : (joinPath (b :: r).reverse).length ≠ 0 := by
                  rw [List.reverse_cons, joinPath_append]; simp [joinPath]
                rw [if_neg hb0]
                have e4 : ((joinPath (a :: b :: r).reverse ++ ['/']) ++ '.' :: ('.' :: joinPath (d :: cs))).take (joinPath (b :: r).reverse).length = joinPath (b :: r).reverse := by
                  rw [eP, show ((joinPath (b :: r).reverse ++ '/' :: a) ++ ['/']) ++ '.' :: ('.' :: joinPath (d :: cs)) = joinPath (b :: r).reverse ++ ('/' :: a ++ '/' :: '.' :: ('.' :: joinPath (d :: cs))) by simp, List.take_left]
                rw [e4]
                show normLoop k (joinPath (b :: r).reverse ++ joinPath (d :: cs)) _ = _
                exact ih (b :: r) hcs' (fun x hx => hst x (by simp at hx ⊢; tauto)) k (by
                  rw [joinPath_head (c := a)] at hk
                  simp at hk ⊢
                  omega)
          · refine ⟨by simp, ?_, ?_⟩
            · rw [joinPath_head]
              have := (hcs' d (by simp)).1
              cases d with
              | nil => exact absurd rfl this
              | cons y d => simp
            · rw [hdr, joinPath_head]
              rfl
          · rintro ⟨_, _, h⟩
            rw [hdr] at h
            simp at h
        · rw [if_neg h2]
          have eP : joinPath (c :: st).reverse = joinPath st.reverse ++ '/' :: c := by rw [List.reverse_cons, joinPath_append]; simp [joinPath]
          rw [normLoop_skip (by decide)]
          have := normLoop_name (P := joinPath st.reverse) (c1 := []) (c2 := c) (R := joinPath (d :: cs)) (by simpa using hc.2) (joinPath_rest _) (fun _ => ⟨h1, h2⟩)
            (m := 2 * (joinPath (d :: cs)).length + 1 + (joinPath (c :: st)).length) (target := resolve (c :: st) (d :: cs) >>= fun r => .ok (joinPath r)) (by
              intro k hk
              have h := ih (c :: st) hcs' (fun x hx => by
                rcases List.mem_cons.1 hx with hx | hx
                · rw [hx]; exact hc
                · exact hst x hx) k hk
              rw [eP] at h
              rw [← h]
              have e1 : joinPath st.reverse ++ '/' :: ([] ++ c ++ joinPath (d :: cs)) = joinPath st.reverse ++ '/' :: c ++ joinPath (d :: cs) := by simp
              have e2 : (joinPath st.reverse).length + 1 + ([] ++ c).length = (joinPath st.reverse ++ '/' :: c).length := by simp; omega
              rw [e1, e2])
          have h2 := this k (by
            rw [joinPath_head (c := c)]
            simp at hk ⊢
            omega)
          simpa using h2

/-- Normalising an absolute path whose names are not empty leads where the names lead. -/
theorem normalize_resolve {cs : List Str} (h : ∀ c ∈ cs, Name c) : normalize (joinPath cs) = (resolve [] cs >>= fun r => .ok (joinPath r)) := by
  have := normLoop_resolve cs [] h (by simp) (2 * (joinPath cs).length + 1) (by simp [joinPath])
  simpa [normalize, joinPath] using this

theorem strchr_len {s p : Str} {c : Char} (h : strchr s c = some p) : p.length ≤ s.length ∧ 0 < p.length := by
  induction s with
  | nil => cases h
  | cons x t ih =>
    unfold strchr at h
    by_cases hx : x = c
    · rw [if_pos hx] at h
      cases h
      simp
    · rw [if_neg hx] at h
      have := ih h
      simp
      omega

theorem backTo_le (s : Str) (i : Nat) : backTo s i ≤ i := by
  induction i with
  | zero => exact le_refl _
  | succ i ih =>
    unfold backTo
    split_ifs
    · exact le_refl _
    · omega

/-- More fuel does not change the result: the loop ends by itself. -/
theorem normalize_total : ∀ (n : Nat) (s : Str) (b k : Nat), 2 * s.length + 1 ≤ n + b → n ≤ k → normLoop k s b = normLoop n s b ∨ s.length < b := by
  intro n
  induction n with
  | zero =>
    intro s b k h1 _
    right
    omega
  | succ n ih =>
    intro s b k h1 h2
    by_cases hb : s.length < b
    · exact .inr hb
    left
    obtain ⟨k, rfl⟩ : ∃ k', k = k' + 1 := ⟨k - 1, by omega⟩
    unfold normLoop
    cases hp : strchr (s.drop b) '.' with
    | none => rfl
    | some p =>
      simp only
      have hl := strchr_len hp
      rw [List.length_drop] at hl
      have hib : b ≤ s.length - p.length := by omega
      by_cases c1 : 0 < s.length - p.length ∧ 2 < p.length ∧ (s.drop (s.length - p.length - 1)).take 3 = "/./".toList
      · rw [if_pos c1, if_pos c1]
        have hlen : (s.take (s.length - p.length) ++ s.drop (s.length - p.length + 2)).length = s.length - 2 := by
          rw [List.length_append, List.length_take, List.length_drop]; omega
        rcases ih _ (s.length - p.length) k (by rw [hlen]; omega) (by omega) with h | h
        · exact h
        · rw [hlen] at h; omega
      · rw [if_neg c1, if_neg c1]
        by_cases c2 : 0 < s.length - p.length ∧ 3 < p.length ∧ (s.drop (s.length - p.length - 1)).take 4 = "/../".toList
        · rw [if_pos c2, if_pos c2]
          by_cases c3 : s.length - p.length = 1
          · rw [if_pos c3, if_pos c3]
          · rw [if_neg c3, if_neg c3]
            by_cases c4 : backTo s (s.length - p.length - 2) = 0
            · rw [if_pos c4, if_pos c4]
            · rw [if_neg c4, if_neg c4]
              have hj := backTo_le s (s.length - p.length - 2)
              have hlen : (s.take (backTo s (s.length - p.length - 2)) ++ s.drop (s.length - p.length + 2)).length = backTo s (s.length - p.length - 2) + (p.length - 2) := by
                rw [List.length_append, List.length_take, List.length_drop]; omega
              rcases ih _ (backTo s (s.length - p.length - 2)) k (by rw [hlen]; omega) (by omega) with h | h
              · exact h
              · rw [hlen] at h; omega
        · rw [if_neg c2, if_neg c2]
          rcases ih s (s.length - p.length + 1) k (by omega) (by omega) with h | h
          · exact h
          · omega

end Jit
end Verif
