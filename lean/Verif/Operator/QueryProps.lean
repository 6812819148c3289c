import Verif.Operator.Query
import Mathlib.Tactic.Ring

/-!
# C81: questions about the fields of an operator
-/

namespace Verif
namespace Query

variable {sel : Fld → Nat} {f : Nat → Fld} {P : Op} {s s' : St}

theorem st_ext {a b : St} (h1 : ∀ x, a.cnt x = b.cnt x) (h2 : a.setup = b.setup) : a = b := by
  obtain ⟨c, d⟩ := a
  obtain ⟨c', d'⟩ := b
  simp only at h1 h2
  rw [h2, funext h1]

/-- The state after a reference to `o` was handed out. -/
def given (o : Option Nat) (s : St) : St := { s with cnt := fun x => s.cnt x + oneRef o x }

theorem given_none (s : St) : given none s = s := st_ext (fun x => by simp [given, oneRef]) rfl

/-- What the loop does, in all cases. -/
theorem scan_cases (sel : Fld → Nat) (f : Nat → Fld) (n : Nat) (s : St) :
    (scan sel f n s = .ok s none ∧ ∀ i < n, (f i).active = false) ∨
    (∃ o, scan sel f n s = .ok (given (some o) s) (some o) ∧ Common sel f n o) ∨
    (∃ s', scan sel f n s = .err s' .minor ∧
      ∃ i < n, ∃ j < n, (f i).active = true ∧ (f j).active = true ∧ sel (f i) ≠ sel (f j)) := by
  induction n with
  | zero => exact Or.inl ⟨rfl, fun i hi => by omega⟩
  | succ n ih =>
    cases ha : (f n).active with
    | false =>
      rcases ih with ⟨h1, h2⟩ | ⟨o, h1, h2, h3⟩ | ⟨s', h1, i, hi, j, hj, h2⟩
      · refine Or.inl ⟨?_, fun i hi => ?_⟩
        · simp [scan, M.bind_apply, h1, ha]
        · rcases Nat.lt_succ_iff_lt_or_eq.1 hi with h | rfl
          · exact h2 i h
          · exact ha
      · refine Or.inr (Or.inl ⟨o, ?_, ?_, fun i hi hia => ?_⟩)
        · simp [scan, M.bind_apply, h1, ha]
        · obtain ⟨i, hi, h⟩ := h2
          exact ⟨i, by omega, h⟩
        · rcases Nat.lt_succ_iff_lt_or_eq.1 hi with h | rfl
          · exact h3 i h hia
          · rw [ha] at hia; cases hia
      · exact Or.inr (Or.inr ⟨s', by simp [scan, M.bind_apply, h1], i, by omega, j, by omega, h2⟩)
    | true =>
      rcases ih with ⟨h1, h2⟩ | ⟨o, h1, ⟨i, hi, hia⟩, h3⟩ | ⟨s', h1, i, hi, j, hj, h2⟩
      · refine Or.inr (Or.inl ⟨sel (f n), ?_, ⟨n, by omega, ha⟩, fun i hi hia => ?_⟩)
        · simp only [scan, M.bind_apply, h1, ha, Out.bind_ok, if_true, take, M.check_apply, true_or, drop, M.pure_apply]
          congr 1
          refine st_ext (fun x => ?_) rfl
          simp only [given, oneRef, Option.some.injEq]
          by_cases hx : x = sel (f n)
          · subst hx; simp
          · rw [if_neg (fun h => hx h.1), if_neg (fun h => hx h.1.symm)]; ring
        · rcases Nat.lt_succ_iff_lt_or_eq.1 hi with h | rfl
          · rw [h2 i h] at hia; cases hia
          · rfl
      · by_cases ho : o = sel (f n)
        · subst ho
          refine Or.inr (Or.inl ⟨sel (f n), ?_, ⟨n, by omega, ha⟩, fun j hj hja => ?_⟩)
          · simp only [scan, M.bind_apply, h1, ha, Out.bind_ok, if_true, take, M.check_apply, or_true, drop, M.pure_apply,
              reduceCtorEq, if_false]
            congr 1
            refine st_ext (fun x => ?_) rfl
            simp only [given]
            ring
          · rcases Nat.lt_succ_iff_lt_or_eq.1 hj with h | rfl
            · exact h3 j h hja
            · rfl
        · have hc : ¬ (some o = none ∨ some o = some (sel (f n))) := by simp [ho]
          have he : ∃ t, scan sel f (n + 1) s = .err t .minor := by
            unfold scan
            rw [M.bind_apply, h1, Out.bind_ok, if_pos ha, M.bind_apply]
            unfold take
            rw [Out.bind_ok, M.bind_apply, M.check_false hc]
            exact ⟨_, rfl⟩
          obtain ⟨t, ht⟩ := he
          exact Or.inr (Or.inr ⟨t, ht, i, by omega, n, by omega, hia, ha, by rw [h3 i hi hia]; exact ho⟩)
      · exact Or.inr (Or.inr ⟨s', by simp [scan, M.bind_apply, h1], i, by omega, j, by omega, h2⟩)

theorem findActive_cases (sel : Fld → Nat) (f : Nat → Fld) (n : Nat) (s : St) :
    (∃ o, findActive sel f n s = .ok (given (some o) s) (some o) ∧ Common sel f n o) ∨
    (findActive sel f n s = .err s .incomplete ∧ ∀ i < n, (f i).active = false) ∨
    (∃ s', findActive sel f n s = .err s' .minor ∧
      ∃ i < n, ∃ j < n, (f i).active = true ∧ (f j).active = true ∧ sel (f i) ≠ sel (f j)) := by
  rcases scan_cases sel f n s with ⟨h1, h2⟩ | ⟨o, h1, h2⟩ | ⟨s', h1, h2⟩
  · exact Or.inr (Or.inl ⟨by simp [findActive, M.bind_apply, h1, M.check_apply], h2⟩)
  · exact Or.inl ⟨o, by simp [findActive, M.bind_apply, h1, M.check_apply], h2⟩
  · exact Or.inr (Or.inr ⟨s', by simp [findActive, M.bind_apply, h1], h2⟩)

theorem drop_take (o : Nat) (s : St) : (take o s).bind (fun s _ => drop o s) = .ok s () := by
  simp only [take, drop, Out.bind_ok]
  congr 1
  exact st_ext (fun x => by simp) rfl

theorem getFields_ok (hc : P.composite = false) (hr : s.setup = true ∨ Complete P) :
    getFields P s = .ok { s with setup := true } () := by
  have hk : checkReady P s = .ok { s with setup := true } () := by
    unfold checkReady
    by_cases hs : s.setup = true
    · rw [if_pos hs]
      congr 1
      exact st_ext (fun _ => rfl) hs
    · rw [if_neg hs]
      obtain ⟨a, b, c, d⟩ := hr.resolve_left hs
      simp only [M.bind_apply, take, Out.bind_ok, M.check_true a, M.check_true b, M.check_true c, M.check_true d, drop]
      show Out.ok _ () = _
      congr 1
      exact st_ext (fun x => by simp) rfl
  unfold getFields
  simp only [M.bind_apply, M.check_true hc, Out.bind_ok, hk]
  exact drop_take _ _

theorem getActive_eq (hc : P.composite = false) (hr : s.setup = true ∨ Complete P) (wi wo : Bool) :
    getActive sel P wi wo s =
      ((if wi = true then findActive sel P.inp P.nin { s with setup := true } else .ok { s with setup := true } none).bind
        fun t a => (if wo = true then findActive sel P.out P.nout t else .ok t none).bind fun t b => .ok t (a, b)) := by
  unfold getActive
  rw [M.bind_apply, getFields_ok hc hr, Out.bind_ok]
  cases wi <;> cases wo <;> rfl

/-- A successful call of `GetActiveBases` or `GetActiveElemRestrictions` finds, on each side asked for, the object all
active fields share, hands out one reference to it, and changes no other count. -/
theorem C81_active_found_partial (hc : P.composite = false) (hr : s.setup = true ∨ Complete P) {wi wo : Bool} {a b : Option Nat}
    (h : getActive sel P wi wo s = .ok s' (a, b)) :
    (wi = true → ∃ o, a = some o ∧ Common sel P.inp P.nin o) ∧ (wi = false → a = none) ∧
    (wo = true → ∃ o, b = some o ∧ Common sel P.out P.nout o) ∧ (wo = false → b = none) ∧
    ∀ x, s'.cnt x = s.cnt x + oneRef a x + oneRef b x := by
  have hn : ∀ x, oneRef none x = 0 := fun x => by simp [oneRef]
  rw [getActive_eq hc hr] at h
  cases wi with
  | false =>
    simp only [Bool.false_eq_true, if_false, M.pure_apply, Out.bind_ok] at h
    cases wo with
    | false =>
      simp only [Bool.false_eq_true, if_false, M.pure_apply, Out.bind_ok, Out.ok.injEq, Prod.mk.injEq] at h
      obtain ⟨rfl, rfl, rfl⟩ := h
      simp [hn]
    | true =>
      simp only [if_true] at h
      rcases findActive_cases sel P.out P.nout { s with setup := true } with ⟨o, h1, h2⟩ | ⟨h1, -⟩ | ⟨t, h1, -⟩
      · simp only [h1, Out.bind_ok, M.pure_apply, Out.ok.injEq, Prod.mk.injEq] at h
        obtain ⟨rfl, rfl, rfl⟩ := h
        refine ⟨by simp, by simp, fun _ => ⟨o, rfl, h2⟩, by simp, fun x => ?_⟩
        simp [given, hn]
      · simp [h1] at h
      · simp [h1] at h
  | true =>
    simp only [if_true] at h
    rcases findActive_cases sel P.inp P.nin { s with setup := true } with ⟨o, h1, h2⟩ | ⟨h1, -⟩ | ⟨t, h1, -⟩
    · simp only [h1, Out.bind_ok] at h
      cases wo with
      | false =>
        simp only [Bool.false_eq_true, if_false, M.pure_apply, Out.bind_ok, Out.ok.injEq, Prod.mk.injEq] at h
        obtain ⟨rfl, rfl, rfl⟩ := h
        refine ⟨fun _ => ⟨o, rfl, h2⟩, by simp, by simp, by simp, fun x => ?_⟩
        simp [given, hn]
      | true =>
        simp only [if_true] at h
        rcases findActive_cases sel P.out P.nout (given (some o) { s with setup := true }) with ⟨o', h1', h2'⟩ | ⟨h1', -⟩ | ⟨t, h1', -⟩
        · simp only [h1', Out.bind_ok, M.pure_apply, Out.ok.injEq, Prod.mk.injEq] at h
          obtain ⟨rfl, rfl, rfl⟩ := h
          exact ⟨fun _ => ⟨o, rfl, h2⟩, by simp, fun _ => ⟨o', rfl, h2'⟩, by simp, fun x => by simp [given]⟩
        · simp [h1'] at h
        · simp [h1'] at h
    · simp [h1] at h
    · simp [h1] at h

/-- The call succeeds if there is a common object on each side asked for. -/
theorem C81_active_succeeds_partial (hc : P.composite = false) (hr : s.setup = true ∨ Complete P) {wi wo : Bool}
    (hi : wi = true → ∃ o, Common sel P.inp P.nin o) (ho : wo = true → ∃ o, Common sel P.out P.nout o) :
    ∃ s' a, getActive sel P wi wo s = .ok s' a := by
  have key : ∀ (f : Nat → Fld) n (t : St), (∃ o, Common sel f n o) →
      ∃ o, findActive sel f n t = .ok (given (some o) t) (some o) := by
    rintro f n t ⟨o, ⟨k, hk, hka⟩, hall⟩
    rcases findActive_cases sel f n t with ⟨o', h1, -⟩ | ⟨-, h2⟩ | ⟨-, -, i, hi, j, hj, hia, hja, hne⟩
    · exact ⟨o', h1⟩
    · rw [h2 k hk] at hka; cases hka
    · exact absurd ((hall i hi hia).trans (hall j hj hja).symm) hne
  rw [getActive_eq hc hr]
  cases wi with
  | false =>
    cases wo with
    | false => exact ⟨_, _, rfl⟩
    | true =>
      obtain ⟨o, h⟩ := key P.out P.nout { s with setup := true } (ho rfl)
      simp only [Bool.false_eq_true, if_false, if_true, M.pure_apply, Out.bind_ok, h]
      exact ⟨_, _, rfl⟩
  | true =>
    obtain ⟨o, h⟩ := key P.inp P.nin { s with setup := true } (hi rfl)
    cases wo with
    | false =>
      simp only [Bool.false_eq_true, if_false, if_true, M.pure_apply, Out.bind_ok, h]
      exact ⟨_, _, rfl⟩
    | true =>
      obtain ⟨o', h'⟩ := key P.out P.nout (given (some o) { s with setup := true }) (ho rfl)
      simp only [if_true, M.pure_apply, Out.bind_ok, h, h']
      exact ⟨_, _, rfl⟩

/-- Operators without active inputs are reported as incomplete, without taking a reference. -/
theorem C81_none_active (hc : P.composite = false) (hr : s.setup = true ∨ Complete P) (wo : Bool)
    (h : ∀ i < P.nin, (P.inp i).active = false) :
    getActive sel P true wo s = .err { s with setup := true } .incomplete := by
  rw [getActive_eq hc hr]
  simp only [if_true]
  rcases findActive_cases sel P.inp P.nin { s with setup := true } with ⟨o, h1, ⟨k, hk, hka⟩, h2⟩ | ⟨h1, -⟩ | ⟨t, h1, i, hi, -, -, hia, -⟩
  · rw [h k hk] at hka; cases hka
  · rw [h1]; rfl
  · rw [h i hi] at hia; cases hia

/-- Operators whose active inputs do not share the object are refused. -/
theorem C81_ambiguous (hc : P.composite = false) (hr : s.setup = true ∨ Complete P) (wo : Bool) {i j : Nat} (hi : i < P.nin)
    (hj : j < P.nin) (hia : (P.inp i).active = true) (hja : (P.inp j).active = true) (hne : sel (P.inp i) ≠ sel (P.inp j)) :
    ∃ t, getActive sel P true wo s = .err t .minor := by
  rw [getActive_eq hc hr]
  simp only [if_true]
  rcases findActive_cases sel P.inp P.nin { s with setup := true } with ⟨o, h1, -, h2⟩ | ⟨h1, h2⟩ | ⟨t, h1, -⟩
  · exact absurd ((h2 i hi hia).trans (h2 j hj hja).symm) hne
  · rw [h2 i hi] at hia; cases hia
  · exact ⟨t, by rw [h1]; rfl⟩

/-- The same for outputs, asked for alone: without active outputs the operator is incomplete. -/
theorem C81_none_active_output (hc : P.composite = false) (hr : s.setup = true ∨ Complete P)
    (h : ∀ i < P.nout, (P.out i).active = false) :
    getActive sel P false true s = .err { s with setup := true } .incomplete := by
  rw [getActive_eq hc hr]
  simp only [Bool.false_eq_true, if_false, if_true, Out.bind_ok]
  rcases findActive_cases sel P.out P.nout { s with setup := true } with ⟨o, h1, ⟨k, hk, hka⟩, h2⟩ | ⟨h1, -⟩ | ⟨t, h1, i, hi, -, -, hia, -⟩
  · rw [h k hk] at hka; cases hka
  · rw [h1]; rfl
  · rw [h i hi] at hia; cases hia

/-- Active outputs that do not share the object are refused. -/
theorem C81_ambiguous_output (hc : P.composite = false) (hr : s.setup = true ∨ Complete P) {i j : Nat} (hi : i < P.nout)
    (hj : j < P.nout) (hia : (P.out i).active = true) (hja : (P.out j).active = true) (hne : sel (P.out i) ≠ sel (P.out j)) :
    ∃ t, getActive sel P false true s = .err t .minor := by
  rw [getActive_eq hc hr]
  simp only [Bool.false_eq_true, if_false, if_true, Out.bind_ok]
  rcases findActive_cases sel P.out P.nout { s with setup := true } with ⟨o, h1, -, h2⟩ | ⟨h1, h2⟩ | ⟨t, h1, -⟩
  · exact absurd ((h2 i hi hia).trans (h2 j hj hja).symm) hne
  · rw [h2 i hi] at hia; cases hia
  · exact ⟨t, by rw [h1]; rfl⟩

theorem allTensor_eq (tensor : Nat → Bool) (f : Nat → Fld) (n : Nat) (c : Bool) (s : St) :
    allTensor tensor f n c s = .ok s (c && decide (∀ i < n, (f i).basis ≠ 0 → tensor (f i).basis = true)) := by
  induction n with
  | zero => simp [allTensor]
  | succ n ih =>
    simp only [allTensor, M.bind_apply, ih, Out.bind_ok, take, drop, M.pure_apply]
    congr 1
    · exact st_ext (fun x => by simp) rfl
    · have hsplit : (∀ i < n + 1, (f i).basis ≠ 0 → tensor (f i).basis = true) ↔
          (∀ i < n, (f i).basis ≠ 0 → tensor (f i).basis = true) ∧ ((f n).basis ≠ 0 → tensor (f n).basis = true) := by
        constructor
        · exact fun h => ⟨fun i hi => h i (by omega), h n (by omega)⟩
        · rintro ⟨h1, h2⟩ i hi
          rcases Nat.lt_succ_iff_lt_or_eq.1 hi with h | rfl
          · exact h1 i h
          · exact h2
      rw [decide_eq_decide.2 hsplit, Bool.decide_and]
      by_cases hb : (f n).basis = 0
      · simp [hb]
      · cases ht : tensor (f n).basis <;> simp [hb, ht]

/-- `HasTensorBases` is true exactly when every field that has a basis has a tensor product basis, and keeps no
reference. -/
theorem C81_tensor (tensor : Nat → Bool) (hc : P.composite = false) (hr : s.setup = true ∨ Complete P) :
    ∃ c, hasTensorBases tensor P s = .ok { s with setup := true } c ∧
      (c = true ↔ (∀ i < P.nin, (P.inp i).basis ≠ 0 → tensor (P.inp i).basis = true) ∧
        ∀ i < P.nout, (P.out i).basis ≠ 0 → tensor (P.out i).basis = true) := by
  unfold hasTensorBases
  simp only [M.bind_apply, getFields_ok hc hr, Out.bind_ok, allTensor_eq]
  refine ⟨_, rfl, ?_⟩
  simp only [Bool.true_and, Bool.and_eq_true, decide_eq_true_eq]

theorem findFrom_spec (p : Nat → Bool) (n : Nat) : ∀ i,
    (∀ k, findFrom p i n = some k → i ≤ k ∧ k < i + n ∧ p k = true ∧ ∀ j, i ≤ j → j < k → p j = false) ∧
    (findFrom p i n = none → ∀ j, i ≤ j → j < i + n → p j = false) := by
  induction n with
  | zero => intro i; exact ⟨fun k h => by simp [findFrom] at h, fun _ j h1 h2 => by omega⟩
  | succ n ih =>
    intro i
    obtain ⟨h1, h2⟩ := ih (i + 1)
    unfold findFrom
    cases hp : p i with
    | true =>
      refine ⟨fun k h => ?_, fun h => by simp at h⟩
      simp only [if_true, Option.some.injEq] at h
      subst h
      exact ⟨le_rfl, by omega, hp, fun j h3 h4 => by omega⟩
    | false =>
      simp only [Bool.false_eq_true, if_false]
      constructor
      · intro k h
        obtain ⟨a, b, c, d⟩ := h1 k h
        refine ⟨by omega, by omega, c, fun j h3 h4 => ?_⟩
        by_cases hj : j = i
        · rw [hj]; exact hp
        · exact d j (by omega) h4
      · intro h j h3 h4
        by_cases hj : j = i
        · rw [hj]; exact hp
        · exact h2 h j (by omega) (by omega)

/-- `GetFieldByName` returns the first input with the name, else the first output, else the null pointer. -/
theorem C81_field_by_name (hc : P.composite = false) (hr : s.setup = true ∨ Complete P) (nm : String) :
    ∃ r, getFieldByName P nm s = .ok { s with setup := true } r ∧
      match r with
      | some (.inl i) => i < P.nin ∧ (P.inp i).name = nm ∧ ∀ j < i, (P.inp j).name ≠ nm
      | some (.inr i) => i < P.nout ∧ (P.out i).name = nm ∧ (∀ j < i, (P.out j).name ≠ nm) ∧ ∀ j < P.nin, (P.inp j).name ≠ nm
      | none => (∀ j < P.nin, (P.inp j).name ≠ nm) ∧ ∀ j < P.nout, (P.out j).name ≠ nm := by
  unfold getFieldByName
  simp only [M.bind_apply, getFields_ok hc hr, Out.bind_ok]
  obtain ⟨a1, a2⟩ := findFrom_spec (fun i => (P.inp i).name == nm) P.nin 0
  obtain ⟨b1, b2⟩ := findFrom_spec (fun i => (P.out i).name == nm) P.nout 0
  cases ha : findFrom (fun i => (P.inp i).name == nm) 0 P.nin with
  | some i =>
    obtain ⟨-, c1, c2, c3⟩ := a1 i ha
    refine ⟨_, rfl, by omega, by simpa using c2, fun j hj => ?_⟩
    have := c3 j (by omega) hj
    simpa using this
  | none =>
    have hin : ∀ j < P.nin, (P.inp j).name ≠ nm := fun j hj => by simpa using a2 ha j (by omega) (by omega)
    cases hb : findFrom (fun i => (P.out i).name == nm) 0 P.nout with
    | some i =>
      obtain ⟨-, c1, c2, c3⟩ := b1 i hb
      refine ⟨_, rfl, by omega, by simpa using c2, fun j hj => ?_, hin⟩
      have := c3 j (by omega) hj
      simpa using this
    | none => exact ⟨_, rfl, hin, fun j hj => by simpa using b2 hb j (by omega) (by omega)⟩

/-- `GetSubByName` returns the first sub-operator with the name, or the null pointer; it changes nothing and is an error
for operators that are not composite. -/
theorem C81_sub_by_name (nm : String) :
    (P.composite = false → getSubByName P nm s = .err s .minor) ∧
    (P.composite = true → ∃ r, getSubByName P nm s = .ok s r ∧
      match r with
      | some i => i < P.nsub ∧ P.subName i = some nm ∧ ∀ j < i, P.subName j ≠ some nm
      | none => ∀ j < P.nsub, P.subName j ≠ some nm) := by
  unfold getSubByName
  constructor
  · intro hc
    rw [M.bind_apply, M.check_false (by rw [hc]; decide)]
    rfl
  · intro hc
    rw [M.bind_apply, M.check_true hc, Out.bind_ok]
    obtain ⟨a1, a2⟩ := findFrom_spec (fun i => P.subName i == some nm) P.nsub 0
    refine ⟨_, rfl, ?_⟩
    cases ha : findFrom (fun i => P.subName i == some nm) 0 P.nsub with
    | some i =>
      obtain ⟨-, c1, c2, c3⟩ := a1 i ha
      refine ⟨by omega, by simpa using c2, fun j hj => ?_⟩
      have := c3 j (by omega) hj
      simpa using this
    | none => exact fun j hj => by simpa using a2 ha j (by omega) (by omega)

/-- Operators that are not complete are refused by all questions about fields. -/
theorem C81_incomplete (hc : P.composite = false) (hs : s.setup = false) (hr : ¬ Complete P) (tensor : Nat → Bool) (nm : String)
    (wi wo : Bool) : ∃ t, getActive sel P wi wo s = .err t .incomplete ∧ hasTensorBases tensor P s = .err t .incomplete ∧
      getFieldByName P nm s = .err t .incomplete ∧ t.setup = false := by
  have hk : ∃ t, getFields P s = .err t .incomplete ∧ t.setup = false := by
    refine ⟨{ s with cnt := fun x => s.cnt x + if x = P.qf ∧ P.qf ≠ 0 then 1 else 0 }, ?_, hs⟩
    unfold getFields
    rw [M.bind_apply, M.check_true hc, Out.bind_ok, M.bind_apply]
    unfold checkReady
    rw [if_neg (by rw [hs]; decide)]
    simp only [M.bind_apply, take, Out.bind_ok]
    by_cases a : 0 < P.numSet
    · rw [M.check_true a, Out.bind_ok]
      by_cases b : P.numSet = P.nin + P.nout
      · rw [M.check_true b, Out.bind_ok]
        by_cases c : P.hasRstr = true
        · rw [M.check_true c, Out.bind_ok]
          by_cases d : 0 < P.numQpts ∨ P.atPoints = true
          · exact absurd ⟨a, b, c, d⟩ hr
          · rw [M.check_false d]; rfl
        · rw [M.check_false c]; rfl
      · rw [M.check_false b]; rfl
    · rw [M.check_false a]; rfl
  obtain ⟨t, h1, h2⟩ := hk
  exact ⟨t, by unfold getActive; rw [M.bind_apply, h1]; rfl, by unfold hasTensorBases; rw [M.bind_apply, h1]; rfl,
    by unfold getFieldByName; rw [M.bind_apply, h1]; rfl, h2⟩

/-! ## Examples and disagreements -/

/-- Gradient and interpolation of the solution with basis 5 and restriction 7, quadrature data without basis. -/
def exOp : Op where
  composite := false
  atPoints := false
  nin := 3
  nout := 1
  inp := fun i => if i = 0 then ⟨"qdata", false, 0, 8⟩ else if i = 1 then ⟨"u", true, 5, 7⟩ else ⟨"du", true, 5, 7⟩
  out := fun _ => ⟨"v", true, 6, 7⟩
  numSet := 4
  hasRstr := true
  numQpts := 4
  qf := 3
  nsub := 0
  subName := fun _ => none

def exSt : St := ⟨fun _ => 1, false⟩

example : Complete exOp := ⟨by decide, by decide, rfl, Or.inl (by decide)⟩
example : Common Fld.basis exOp.inp exOp.nin 5 := ⟨⟨1, by decide, rfl⟩, by decide⟩
example : ∃ s', getActive Fld.basis exOp true true exSt = .ok s' (some 5, some 6) ∧ s'.cnt 5 = 2 ∧ s'.cnt 6 = 2 ∧ s'.cnt 3 = 1 :=
  ⟨_, rfl, by decide +kernel, by decide +kernel, by decide +kernel⟩
example : ∃ s', getActive Fld.rstr exOp true true exSt = .ok s' (some 7, some 7) ∧ s'.cnt 7 = 3 := ⟨_, rfl, by decide +kernel⟩
example : ∃ s', hasTensorBases (fun b => b == 5 || b == 6) exOp exSt = .ok s' true := ⟨_, rfl⟩
example : ∃ s', hasTensorBases (fun b => b == 5) exOp exSt = .ok s' false := ⟨_, rfl⟩
example : ∃ s', getFieldByName exOp "du" exSt = .ok s' (some (.inl 2)) := ⟨_, rfl⟩
example : ∃ s', getFieldByName exOp "v" exSt = .ok s' (some (.inr 0)) := ⟨_, rfl⟩
example : ∃ s', getFieldByName exOp "w" exSt = .ok s' none := ⟨_, rfl⟩
example : getSubByName { exOp with composite := true, nsub := 3, subName := fun i => if i = 0 then none else some "b" } "b" exSt =
    .ok exSt (some 1) := rfl
example : ¬ Complete { exOp with numSet := 3 } := fun h => absurd h.2.1 (by decide)

/-- The null pointer documented for composite operators is not returned: the call is an error. -/
theorem C81_composite_witness : getActive Fld.basis { exOp with composite := true } true true exSt = .err exSt .minor := rfl

/-- `GetSubByName` is documented to make sure that the operator is set up; it does not. -/
theorem C81_sub_setup_witness :
    getSubByName { exOp with composite := true, nsub := 2, subName := fun i => if i = 0 then none else some "b" } "b" exSt =
      .ok exSt (some 1) ∧ exSt.setup = false := ⟨rfl, rfl⟩

/-- When active inputs have different bases, the call returns an error and the second basis keeps a reference nobody
knows of; the first one is left in the variable of the caller. -/
theorem C81_ambiguous_leak_witness :
    ∃ t, getActive Fld.basis { exOp with inp := fun i => if i = 0 then ⟨"u", true, 5, 7⟩ else ⟨"p", true, 9, 7⟩ } true false exSt =
      .err t .minor ∧ t.cnt 9 = 2 ∧ t.cnt 5 = 2 := ⟨_, rfl, by decide +kernel, by decide +kernel⟩

/-- An operator that is not complete is refused, and its QFunction keeps a reference nobody knows of: it is never
freed. -/
theorem C81_incomplete_leak_witness :
    ∃ t, getFieldByName { exOp with numSet := 3 } "u" exSt = .err t .incomplete ∧ t.cnt 3 = 2 := ⟨_, rfl, by decide +kernel⟩

end Query
end Verif
