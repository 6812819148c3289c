import Verif.Gpu.Oper
import Mathlib.Data.List.Nodup
import Mathlib.Data.List.Range
import Mathlib.Data.List.GetD
import Mathlib.Algebra.BigOperators.Group.Finset.Basic

/-!
# Order of the fields (helper lemmas)
-/

namespace Verif.Gpu

theorem iter_inv {σ : Type} {n : Nat} {body : Nat → σ → σ} {s : σ} (I : Nat → σ → Prop) (h0 : I 0 s)
    (hs : ∀ i < n, ∀ s, I i s → I (i + 1) (body i s)) : I n (iter n body s) := by
  induction n with
  | zero => exact h0
  | succ n ih => exact hs n (by omega) _ (ih fun i hi => hs i (by omega))

/-- A later field of the same group. -/
def Later (n : Nat) (R : Nat → Nat → Prop) (f : Nat) : Prop := ∃ k < n, f < k ∧ R f k

/-- Groups are contiguous and ascending; `p` is the field before the list. -/
def Blocks (n : Nat) (R : Nat → Nat → Prop) : Option Nat → List Nat → Prop
  | p, [] => ∀ f, p = some f → ¬ Later n R f
  | p, f :: l => (((∀ q, p = some q → ¬ Later n R q) ∧ ∀ j < f, ¬ R j f) ∨ ∃ q, p = some q ∧ R q f ∧ q < f) ∧
      Blocks n R (some f) l

theorem Blocks.of_none {n : Nat} {R : Nat → Nat → Prop} {l : List Nat} (h : Blocks n R none l) {p : Option Nat}
    (hp : ∀ f, p = some f → ¬ Later n R f) : Blocks n R p l := by
  cases l with
  | nil => exact hp
  | cons f l =>
    refine ⟨.inl ⟨hp, ?_⟩, h.2⟩
    rcases h.1 with h1 | ⟨q, h1, -⟩
    · exact h1.2
    · cases h1

theorem Blocks.append {n : Nat} {R : Nat → Nat → Prop} {l l' : List Nat} (h' : Blocks n R none l') :
    ∀ {p : Option Nat}, Blocks n R p l → Blocks n R p (l ++ l') := by
  induction l with
  | nil => intro p h; exact h'.of_none h
  | cons f l ih => intro p h; exact ⟨h.1, ih h.2⟩

/-- The members of a group behind `x`. -/
theorem blocks_filter {n i : Nat} {R : Nat → Nat → Prop} {p : Nat → Bool} (hp : ∀ j, p j = true ↔ R i j)
    (hsym : ∀ a b, R a b → R b a) (htr : ∀ a b c, R a b → R b c → R a c) : ∀ (m a x : Nat), a + m = n → x < a →
      (x = i ∨ R i x) → (∀ k, x < k → k < a → ¬ R i k) → Blocks n R (some x) ((List.range' a m).filter p) := by
  intro m
  induction m with
  | zero =>
    intro a x ha hx hi hk
    rintro f hf ⟨k, h1, h2, h3⟩
    cases hf
    refine hk k h2 (by omega) ?_
    rcases hi with rfl | hi
    · exact h3
    · exact htr _ _ _ hi h3
  | succ m ih =>
    intro a x ha hx hi hk
    rw [List.range'_succ, List.filter_cons]
    by_cases hpa : p a = true
    · rw [if_pos hpa]
      have hR := (hp a).1 hpa
      refine ⟨.inr ⟨x, rfl, ?_, hx⟩, ih (a + 1) a (by omega) (by omega) (.inr hR) fun k h1 h2 => by omega⟩
      rcases hi with rfl | hi
      · exact hR
      · exact htr _ _ _ (hsym _ _ hi) hR
    · rw [if_neg hpa]
      refine ih (a + 1) x (by omega) (by omega) hi fun k h1 h2 => ?_
      rcases Nat.lt_succ_iff_lt_or_eq.1 h2 with h | rfl
      · exact hk k h1 h
      · exact fun h => hpa ((hp _).2 h)

/-- What the order has to satisfy. -/
structure OrderOK (n : Nat) (R : Nat → Nat → Prop) (l : List Nat) : Prop where
  len : l.length = n
  lt : ∀ i < n, l.getD i 0 < n
  inj : ∀ i < n, ∀ j < n, l.getD i 0 = l.getD j 0 → i = j
  back : ∀ i < n, (∀ j < l.getD i 0, ¬ R j (l.getD i 0)) ∨
    (0 < i ∧ R (l.getD (i - 1) 0) (l.getD i 0) ∧ l.getD (i - 1) 0 < l.getD i 0)
  fwd : ∀ i < n, Later n R (l.getD i 0) →
    i + 1 < n ∧ R (l.getD i 0) (l.getD (i + 1) 0) ∧ l.getD i 0 < l.getD (i + 1) 0

theorem Blocks.get {n : Nat} {R : Nat → Nat → Prop} : ∀ {l : List Nat} {p : Option Nat}, Blocks n R p l → ∀ i < l.length,
    ((∀ j < l.getD i 0, ¬ R j (l.getD i 0)) ∨ (i = 0 ∧ ∃ q, p = some q ∧ R q (l.getD i 0) ∧ q < l.getD i 0) ∨
      (0 < i ∧ R (l.getD (i - 1) 0) (l.getD i 0) ∧ l.getD (i - 1) 0 < l.getD i 0)) ∧
    (Later n R (l.getD i 0) → i + 1 < l.length ∧ R (l.getD i 0) (l.getD (i + 1) 0) ∧ l.getD i 0 < l.getD (i + 1) 0)
  | [], _, _, i, hi => absurd hi (Nat.not_lt_zero _)
  | f :: l, p, h, i, hi => by
    cases i with
    | zero =>
      refine ⟨?_, fun hl => ?_⟩
      · rcases h.1 with h1 | h1
        · exact .inl h1.2
        · exact .inr (.inl ⟨rfl, h1⟩)
      · cases l with
        | nil => exact absurd hl (h.2 f rfl)
        | cons g l =>
          rcases h.2.1 with h1 | ⟨q, h1, h2, h3⟩
          · exact absurd hl (h1.1 f rfl)
          · cases h1
            exact ⟨by simp, h2, h3⟩
    | succ i =>
      have hi' : i < l.length := by simpa using hi
      obtain ⟨h1, h2⟩ := Blocks.get h.2 i hi'
      refine ⟨?_, fun hl => ?_⟩
      · rcases h1 with h1 | ⟨rfl, q, e, h1⟩ | ⟨h0, h1⟩
        · exact .inl h1
        · cases e
          exact .inr (.inr ⟨by omega, h1⟩)
        · obtain ⟨m, rfl⟩ : ∃ m, i = m + 1 := ⟨i - 1, by omega⟩
          exact .inr (.inr ⟨by omega, h1⟩)
      · obtain ⟨a, b⟩ := h2 hl
        exact ⟨by simpa using a, b⟩

section
variable {n : Nat} {alone : Nat → Bool} {same : Nat → Nat → Bool} {len : Nat → Nat} {m0 : Nat}

/-- Fields of the same group. -/
def Rel (alone : Nat → Bool) (same : Nat → Nat → Bool) (i j : Nat) : Prop := alone i = false ∧ same i j = true

/-- State of the order after fields `< i`. -/
structure OrdInv (n : Nat) (alone : Nat → Bool) (same : Nat → Nat → Bool) (len : Nat → Nat) (i : Nat)
    (t : List Nat × Nat) : Prop where
  nodup : t.1.Nodup
  lt : ∀ x ∈ t.1, x < n
  all : ∀ j < i, j ∈ t.1
  closed : ∀ x ∈ t.1, ∀ y < n, Rel alone same x y → y ∈ t.1
  blocks : Blocks n (Rel alone same) none t.1
  from_ : ∀ x ∈ t.1, x < i ∨ ∃ j < i, same j x = true
  len : ∀ x ∈ t.1, alone x = false → len x ≤ t.2

theorem ordInv_step {i : Nat} {t : List Nat × Nat} (hi : i < n) (h : OrdInv n alone same len i t)
    (hsym : ∀ a b, Rel alone same a b → Rel alone same b a)
    (htr : ∀ a b c, Rel alone same a b → Rel alone same b c → Rel alone same a c)
    (hlen : ∀ a b, Rel alone same a b → len b = len a) :
    OrdInv n alone same len (i + 1) (orderStep n alone same len i t) := by
  have hsymm := hsym
  unfold orderStep
  by_cases hm : i ∈ t.1
  · rw [if_pos hm]
    refine ⟨h.nodup, h.lt, fun j hj => ?_, h.closed, h.blocks, fun x hx => ?_, h.len⟩
    · rcases Nat.lt_succ_iff_lt_or_eq.1 hj with hj | rfl
      · exact h.all j hj
      · exact hm
    · rcases h.from_ x hx with h1 | ⟨j, h1, h2⟩
      · exact .inl (by omega)
      · exact .inr ⟨j, by omega, h2⟩
  rw [if_neg hm]
  have lead : ∀ j < i, ¬ Rel alone same j i := fun j hj hr => hm (h.closed j (h.all j hj) i hi hr)
  have key : ∀ (p : Nat → Bool) (M : Nat), t.2 ≤ M → (alone i = false → len i ≤ M) → (∀ j, p j = true ↔ Rel alone same i j) →
      OrdInv n alone same len (i + 1) (t.1 ++ i :: (List.range' (i + 1) (n - (i + 1))).filter p, M) := by
    intro p M hM hl hp
    have hmem : ∀ x, x ∈ (List.range' (i + 1) (n - (i + 1))).filter p ↔ (i < x ∧ x < n ∧ Rel alone same i x) := by
      intro x
      rw [List.mem_filter, List.mem_range'_1, hp]
      constructor
      · rintro ⟨⟨h1, h2⟩, h3⟩; exact ⟨by omega, by omega, h3⟩
      · rintro ⟨h1, h2, h3⟩; exact ⟨⟨by omega, by omega⟩, h3⟩
    have hcase : ∀ x, x ∈ t.1 ++ i :: (List.range' (i + 1) (n - (i + 1))).filter p ↔
        x ∈ t.1 ∨ x = i ∨ (i < x ∧ x < n ∧ Rel alone same i x) := by
      intro x; rw [List.mem_append, List.mem_cons, hmem]
    refine ⟨?_, fun x hx => ?_, fun j hj => ?_, fun x hx y hy hr => ?_, ?_, fun x hx => ?_, fun x hx ha => ?_⟩
    · rw [List.nodup_append]
      refine ⟨h.nodup, List.nodup_cons.2 ⟨fun hh => ?_, (List.nodup_range' _).filter _⟩, fun a ha b hb hab => ?_⟩
      · have := (hmem i).1 hh; omega
      · subst hab
        rcases List.mem_cons.1 hb with rfl | hb
        · exact hm ha
        · have hr := ((hmem a).1 hb).2.2
          exact hm (h.closed a ha i hi (hsym _ _ hr))
    · rcases (hcase x).1 hx with h1 | rfl | h1
      · exact h.lt x h1
      · exact hi
      · exact h1.2.1
    · rw [hcase]
      rcases Nat.lt_succ_iff_lt_or_eq.1 hj with hj | rfl
      · exact .inl (h.all j hj)
      · exact .inr (.inl rfl)
    · rw [hcase]
      have aux : Rel alone same i y → y ∈ t.1 ∨ y = i ∨ (i < y ∧ y < n ∧ Rel alone same i y) := by
        intro hr
        rcases Nat.lt_trichotomy y i with h2 | h2 | h2
        · exact .inl (h.all y h2)
        · exact .inr (.inl h2)
        · exact .inr (.inr ⟨h2, hy, hr⟩)
      rcases (hcase x).1 hx with h1 | rfl | h1
      · exact .inl (h.closed x h1 y hy hr)
      · exact aux hr
      · exact aux (htr _ _ _ h1.2.2 hr)
    · have hb : Blocks n (Rel alone same) none (i :: (List.range' (i + 1) (n - (i + 1))).filter p) :=
        ⟨.inl ⟨fun f hf => absurd hf (by simp), lead⟩,
          blocks_filter hp hsym htr _ _ _ (by omega) (by omega) (.inl rfl) fun k h1 h2 => by omega⟩
      exact Blocks.append hb h.blocks
    · rcases (hcase x).1 hx with h1 | rfl | h1
      · rcases h.from_ x h1 with h2 | ⟨j, h2, h3⟩
        · exact .inl (by omega)
        · exact .inr ⟨j, by omega, h3⟩
      · exact .inl (by omega)
      · exact .inr ⟨i, by omega, h1.2.2.2⟩
    · rcases (hcase x).1 hx with h1 | rfl | h1
      · exact le_trans (h.len x h1 ha) hM
      · exact hl ha
      · have e := hlen _ _ h1.2.2
        have hl' := hl h1.2.2.1
        show len x ≤ M
        omega
  by_cases ha : alone i = true
  · rw [if_pos ha]
    have := key (fun _ => false) t.2 le_rfl (fun h' => by rw [ha] at h'; cases h') (fun j => by simp [Rel, ha])
    rwa [List.filter_false] at this
  · rw [if_neg ha]
    exact key (same i) _ (le_max_left _ _) (fun _ => le_max_right _ _) (fun j => by simp [Rel, ha])

theorem orderStep_prefix (i : Nat) (t : List Nat × Nat) : ∃ l, (orderStep n alone same len i t).1 = t.1 ++ l := by
  unfold orderStep
  split
  · exact ⟨[], by simp⟩
  · split
    · exact ⟨_, rfl⟩
    · exact ⟨_, rfl⟩

variable (hsym : ∀ a b, Rel alone same a b → Rel alone same b a)
    (htr : ∀ a b c, Rel alone same a b → Rel alone same b c → Rel alone same a c)
    (hlen : ∀ a b, Rel alone same a b → len b = len a)
include hsym htr hlen

theorem ordInv_all : OrdInv n alone same len n (orderG n alone same len m0) :=
  iter_inv (OrdInv n alone same len)
    ⟨List.nodup_nil, by simp, by simp, by simp, fun f hf => absurd hf (by simp), by simp, by simp⟩
    fun i hi t ht => ordInv_step hi ht hsym htr hlen

theorem orderG_ok : OrderOK n (Rel alone same) (orderG n alone same len m0).1 := by
  have h := ordInv_all (n := n) (m0 := m0) hsym htr hlen
  set l := (orderG n alone same len m0).1
  have hl : l.length = n := by
    have hp : l.Perm (List.range n) := by
      rw [List.perm_ext_iff_of_nodup h.nodup List.nodup_range]
      exact fun a => ⟨fun ha => List.mem_range.2 (h.lt a ha), fun ha => h.all a (List.mem_range.1 ha)⟩
    rw [hp.length_eq, List.length_range]
  have hg : ∀ i (hi : i < n), l.getD i 0 = l[i]'(by omega) := fun i hi => List.getD_eq_getElem _ _ _
  refine ⟨hl, fun i hi => ?_, fun i hi j hj e => ?_, fun i hi => ?_, fun i hi hla => ?_⟩
  · rw [hg i hi]; exact h.lt _ (List.getElem_mem _)
  · rw [hg i hi, hg j hj] at e
    exact (List.Nodup.getElem_inj_iff h.nodup).1 e
  · rcases (h.blocks.get i (lt_of_lt_of_eq hi hl.symm)).1 with h1 | ⟨-, q, h1, -⟩ | h1
    · exact .inl h1
    · cases h1
    · exact .inr h1
  · have := (h.blocks.get i (lt_of_lt_of_eq hi hl.symm)).2 hla
    rwa [hl] at this

theorem orderG_len {i : Nat} (hi : i < n) (ha : alone i = false) : len i ≤ (orderG n alone same len m0).2 :=
  (ordInv_all (n := n) (m0 := m0) hsym htr hlen).len i ((ordInv_all (n := n) (m0 := m0) hsym htr hlen).all i hi) ha

/-- A field which no group crosses stands at its own position. -/
theorem orderG_pos {o : Nat} (ho : o < n) (h1 : ∀ i < o, ∀ k < n, o ≤ k → same i k = false) :
    (orderG n alone same len m0).1.getD o 0 = o := by
  have step : ∀ i, i ≤ n → OrdInv n alone same len i (iter i (orderStep n alone same len) ([], m0)) := fun i hi =>
    iter_inv (OrdInv n alone same len)
      ⟨List.nodup_nil, by simp, by simp, by simp, fun f hf => absurd hf (by simp), by simp, by simp⟩
      fun i hi t ht => ordInv_step (by omega) ht hsym htr hlen
  have hpre : ∀ d, ∃ l, (iter (o + 1 + d) (orderStep n alone same len) ([], m0)).1 =
      (iter (o + 1) (orderStep n alone same len) ([], m0)).1 ++ l := by
    intro d
    induction d with
    | zero => exact ⟨[], by simp⟩
    | succ d ih =>
      obtain ⟨l, e⟩ := ih
      obtain ⟨l', e'⟩ := orderStep_prefix (n := n) (alone := alone) (same := same) (len := len) (o + 1 + d)
        (iter (o + 1 + d) (orderStep n alone same len) ([], m0))
      exact ⟨l ++ l', by rw [← List.append_assoc, ← e]; exact e'⟩
  obtain ⟨l, e⟩ := hpre (n - (o + 1))
  rw [show o + 1 + (n - (o + 1)) = n by omega] at e
  have hO := step o (by omega)
  set t := iter o (orderStep n alone same len) ([], m0) with ht
  have hmem : ∀ x, x ∈ t.1 ↔ x < o := by
    intro x
    refine ⟨fun hx => ?_, fun hx => hO.all x hx⟩
    rcases hO.from_ x hx with h | ⟨j, h2, h3⟩
    · exact h
    · by_contra hc
      rw [h1 j h2 x (hO.lt x hx) (by omega)] at h3
      cases h3
  have hlen' : t.1.length = o := by
    have hp : t.1.Perm (List.range o) := by
      rw [List.perm_ext_iff_of_nodup hO.nodup List.nodup_range]
      exact fun a => by rw [hmem, List.mem_range]
    rw [hp.length_eq, List.length_range]
  have hstep : ∃ l', (iter (o + 1) (orderStep n alone same len) ([], m0)).1 = t.1 ++ o :: l' := by
    show ∃ l', (orderStep n alone same len o t).1 = _
    unfold orderStep
    rw [if_neg (by rw [hmem]; omega)]
    split
    · exact ⟨[], rfl⟩
    · exact ⟨_, rfl⟩
  obtain ⟨l', e'⟩ := hstep
  show (iter n (orderStep n alone same len) ([], m0)).1.getD o 0 = o
  rw [e, e', List.append_assoc, List.getD_append_right _ _ _ _ (by omega), hlen', Nat.sub_self]
  rfl

end

namespace OrderOK
variable {n : Nat} {R : Nat → Nat → Prop} {l : List Nat} (h : OrderOK n R l)
include h

/-- Sums over the order are sums over the fields. -/
theorem sum {β : Type} [AddCommMonoid β] (F : Nat → β) :
    ∑ i ∈ Finset.range n, F (l.getD i 0) = ∑ i ∈ Finset.range n, F i := by
  have hinj : Set.InjOn (fun i => l.getD i 0) (Finset.range n) := fun i hi j hj e =>
    h.inj i (Finset.mem_range.1 hi) j (Finset.mem_range.1 hj) e
  have himg : (Finset.range n).image (fun i => l.getD i 0) = Finset.range n := by
    apply Finset.eq_of_subset_of_card_le
    · intro x hx
      obtain ⟨i, hi, rfl⟩ := Finset.mem_image.1 hx
      exact Finset.mem_range.2 (h.lt i (Finset.mem_range.1 hi))
    · rw [Finset.card_image_of_injOn hinj]
  conv_rhs => rw [← himg]
  rw [Finset.sum_image hinj]

/-- Every field is in the order. -/
theorem pos {f : Nat} (hf : f < n) : ∃ i < n, l.getD i 0 = f := by
  by_contra hc
  have hsum := h.sum (fun i => if i = f then 1 else 0)
  rw [Finset.sum_eq_zero (fun i hi => if_neg fun e => hc ⟨i, Finset.mem_range.1 hi, e⟩),
    Finset.sum_ite_eq' (Finset.range n) f (fun _ => 1), if_pos (Finset.mem_range.2 hf)] at hsum
  cases hsum

/-- The first field of a group stands before the others. -/
theorem lead_before (htr : ∀ a b c, R a b → R b c → R a c) (hsym : ∀ a b, R a b → R b a) {f : Nat}
    (hlead : ∀ j < f, ¬ R j f) {i : Nat} (hi : i < n) (hR : R f (l.getD i 0)) :
    ∃ j ≤ i, l.getD j 0 = f := by
  induction i with
  | zero =>
    rcases h.back 0 hi with h1 | h1
    · rcases Nat.lt_trichotomy f (l.getD 0 0) with h2 | h2 | h2
      · exact absurd hR (h1 f h2)
      · exact ⟨0, le_rfl, h2.symm⟩
      · exact absurd (hsym _ _ hR) (hlead _ h2)
    · exact absurd h1.1 (Nat.lt_irrefl 0)
  | succ i ih =>
    rcases h.back (i + 1) hi with h1 | ⟨_, h1, _⟩
    · rcases Nat.lt_trichotomy f (l.getD (i + 1) 0) with h2 | h2 | h2
      · exact absurd hR (h1 f h2)
      · exact ⟨i + 1, le_rfl, h2.symm⟩
      · exact absurd (hsym _ _ hR) (hlead _ h2)
    · obtain ⟨j, hj, e⟩ := ih (by omega) (htr _ _ _ hR (hsym _ _ h1))
      exact ⟨j, by omega, e⟩

end OrderOK

end Verif.Gpu
