import Verif.Fortran.Model
import Mathlib.Data.Finset.Card
import Mathlib.Data.Finset.Range
import Mathlib.Logic.Function.Basic

/-!
# C59: Fortran handles designate their objects
-/

namespace Verif
namespace Fortran

open Finset

variable {O : Type}

/-! ## Specification -/

/-- Histories of a Fortran program with variables `vs`; `L h` is the object for which handle `h` was made and that was not
destroyed since. The program may copy handles, creation and destruction may fail, and only handles of objects that were not
destroyed (or `FORTRAN_NULL`) are destroyed. -/
inductive Reach : Tbl O → (Nat → Int) → (Int → Option O) → Prop
  | start (vs) : Reach Tbl.empty vs (fun _ => none)
  | create {T T' vs L h} (v : Nat) (o : O) : Reach T vs L → T.create (.ok o) = .ok (T', some h) →
      Reach T' (Function.update vs v h) (Function.update L h (some o))
  | createFails {T T' vs L x} (c : Option (Slot O)) : Reach T vs L → T.create (.fail c) = .ok (T', x) → Reach T' vs L
  | create3 {T T' vs L h1 h2 h3} (v1 v2 v3 : Nat) (a b c : O) : Reach T vs L → T.create3 a b c = .ok (T', h1, h2, h3) →
      Reach T' (Function.update (Function.update (Function.update vs v1 h1) v2 h2) v3 h3)
        (Function.update (Function.update (Function.update L h1 (some a)) h2 (some b)) h3 (some c))
  | copy {T vs L} (v w : Nat) : Reach T vs L → Reach T (Function.update vs w (vs v)) L
  | destroy {T T' vs L h} (v : Nat) (good : Bool) : Reach T vs L → (vs v = fnull ∨ (L (vs v)).isSome) →
      T.destroy (vs v) good = .ok (T', h, true) → Reach T' (Function.update vs v h) (Function.update L (vs v) none)
  | destroyFails {T T' vs L h} (v : Nat) (good : Bool) : Reach T vs L → (vs v = fnull ∨ (L (vs v)).isSome) →
      T.destroy (vs v) good = .ok (T', h, false) → Reach T' (Function.update vs v h) L

/-! ## Invariant -/

/-- Live handles below `c`. -/
def liveSet (L : Int → Option O) (c : Nat) : Finset Nat := (range c).filter (fun i => (L i).isSome = true)

structure Inv (T : Tbl O) (L : Int → Option O) : Prop where
  len : T.slots.len = T.max
  le : T.count ≤ T.max
  live : ∀ h o, L h = some o → 0 ≤ h ∧ h < T.count ∧ T.slots.val h.toNat = .obj o
  dead : ∀ i < T.count, L i = none → T.slots.val i = .null
  n : T.n = (liveSet L T.count).card
  zero : T.n = 0 → T.count = 0

theorem growMax_ok (c m : Nat) : c + 2 < growMax c m ∧ m ≤ growMax c m := by
  induction m using growMax.induct c with
  | case1 m h => rw [growMax, if_pos h]; exact ⟨h, le_refl _⟩
  | case2 m h ih =>
    rw [growMax, if_neg h]
    exact ⟨ih.1, le_trans (by omega) ih.2⟩

theorem Inv.realloc {T : Tbl O} {L : Int → Option O} (h : Inv T L) {m : Nat} (hm : T.max ≤ m) : Inv (T.realloc m) L := by
  refine ⟨rfl, le_trans h.le hm, fun i o hi => ?_, fun i hi hl => ?_, h.n, h.zero⟩
  · obtain ⟨h1, h2, h3⟩ := h.live i o hi
    refine ⟨h1, h2, ?_⟩
    have h4 : i.toNat < T.slots.len := by rw [h.len]; have := h.le; omega
    show (if i.toNat < T.slots.len then _ else _) = _
    rw [if_pos h4, h3]
  · have h4 : i < T.slots.len := by rw [h.len]; exact lt_of_lt_of_le hi h.le
    show (if i < T.slots.len then _ else _) = _
    rw [if_pos h4]
    exact h.dead i hi hl

theorem Inv.grow {T : Tbl O} {L : Int → Option O} (h : Inv T L) :
    Inv T.grow L ∧ T.grow.count < T.grow.max ∧ T.grow.count = T.count ∧ T.grow.n = T.n := by
  unfold Tbl.grow
  split
  · rename_i hc
    refine ⟨h.realloc (by omega), ?_, rfl, rfl⟩
    show T.count < T.max + (T.max / 2 + 1)
    omega
  · rename_i hc
    exact ⟨h, lt_of_le_of_ne h.le hc, rfl, rfl⟩

theorem Inv.above {T : Tbl O} {L : Int → Option O} (h : Inv T L) {i : Int} (hi : (T.count : Int) ≤ i ∨ i < 0) : L i = none := by
  cases hl : L i with
  | none => rfl
  | some o =>
    obtain ⟨h1, h2, _⟩ := h.live i o hl
    omega

/-- The next entry. -/
theorem Inv.push {T : Tbl O} {L : Int → Option O} (h : Inv T L) (hc : T.count < T.max) (o : O) :
    ∃ s, T.slots.wr T.count (.obj o) = .ok s ∧
      Inv { T with slots := s, count := T.count + 1, n := T.n + 1 } (Function.update L T.count (some o)) := by
  refine ⟨_, Buf.wr_lt (by rw [h.len]; exact hc) _, ⟨h.len, hc, fun i x hi => ?_, fun i hi hl => ?_, ?_, ?_⟩⟩
  · by_cases hic : i = T.count
    · subst hic
      rw [Function.update_self] at hi
      cases hi
      refine ⟨by omega, ?_, ?_⟩
      · show (T.count : Int) < ((T.count + 1 : Nat) : Int); omega
      · show (if ((T.count : Int)).toNat = T.count then _ else _) = _
        rw [if_pos (by omega)]
    · rw [Function.update_of_ne hic] at hi
      obtain ⟨h1, h2, h3⟩ := h.live i x hi
      refine ⟨h1, ?_, ?_⟩
      · show i < ((T.count + 1 : Nat) : Int); omega
      · show (if i.toNat = T.count then _ else _) = _
        rw [if_neg (by omega), h3]
  · have hic : i ≠ T.count := by
      rintro rfl
      rw [Function.update_self] at hl
      cases hl
    have hi' : i < T.count + 1 := hi
    rw [Function.update_of_ne (by exact_mod_cast hic)] at hl
    show (if i = T.count then _ else _) = _
    rw [if_neg hic]
    exact h.dead i (by omega) hl
  · show T.n + 1 = _
    have : liveSet (Function.update L T.count (some o)) (T.count + 1) = insert T.count (liveSet L T.count) := by
      ext i
      simp only [liveSet, mem_filter, mem_range, mem_insert]
      by_cases hic : i = T.count
      · subst hic; simp
      · rw [Function.update_of_ne (by exact_mod_cast hic)]
        constructor
        · rintro ⟨h1, h2⟩; exact Or.inr ⟨by omega, h2⟩
        · rintro (h1 | ⟨h1, h2⟩)
          · exact absurd h1 hic
          · exact ⟨by omega, h2⟩
    show _ = (((liveSet (Function.update L T.count (some o)) (T.count + 1)).card : Nat) : Int)
    rw [this, card_insert_of_notMem (by simp [liveSet]), h.n]
    push_cast
    rfl
  · intro h0
    have : T.n + 1 = 0 := h0
    have := h.n
    omega

/-- A handle is made for every object. -/
theorem create_ok {T : Tbl O} {L : Int → Option O} (h : Inv T L) (o : O) :
    ∃ T', T.create (.ok o) = .ok (T', some (T.count : Int)) ∧ Inv T' (Function.update L T.count (some o)) ∧ T'.count = T.count + 1 := by
  obtain ⟨g1, g2, g3, g4⟩ := h.grow
  obtain ⟨s, e, hI⟩ := g1.push g2 o
  refine ⟨_, ?_, by rw [← g3]; exact hI, by show T.grow.count + 1 = _; rw [g3]⟩
  unfold Tbl.create
  simp only [e, Res.bind_ok]
  simp only [g3]

theorem createFails_ok {T : Tbl O} {L : Int → Option O} (h : Inv T L) (c : Option (Slot O)) :
    ∃ T', T.create (.fail c) = .ok (T', none) ∧ Inv T' L ∧ T'.count = T.count := by
  obtain ⟨g1, g2, g3, g4⟩ := h.grow
  unfold Tbl.create
  cases c with
  | none => exact ⟨_, rfl, g1, g3⟩
  | some x =>
    simp only [Buf.wr_lt (show T.grow.count < T.grow.slots.len by rw [g1.len]; exact g2), Res.bind_ok]
    refine ⟨_, rfl, ⟨g1.len, g1.le, fun i o hi => ?_, fun i hi hl => ?_, g1.n, g1.zero⟩, g3⟩
    · obtain ⟨h1, h2, h3⟩ := g1.live i o hi
      refine ⟨h1, h2, ?_⟩
      show (if i.toNat = T.grow.count then _ else _) = _
      rw [if_neg (by omega), h3]
    · have hi' : i < T.grow.count := hi
      show (if i = T.grow.count then _ else _) = _
      rw [if_neg (by omega)]
      exact g1.dead i hi hl

theorem create3_ok {T : Tbl O} {L : Int → Option O} (h : Inv T L) (a b c : O) :
    ∃ T', T.create3 a b c = .ok (T', (T.count : Int), (T.count : Int) + 1, (T.count : Int) + 2) ∧
      Inv T' (Function.update (Function.update (Function.update L T.count (some a)) ((T.count : Int) + 1) (some b))
        ((T.count : Int) + 2) (some c)) ∧ T'.count = T.count + 3 := by
  obtain ⟨m1, m2⟩ := growMax_ok T.count T.max
  have hI := h.realloc m2
  have hx : (T.realloc (growMax T.count T.max)).max = growMax T.count T.max := rfl
  have hc : (T.realloc (growMax T.count T.max)).count = T.count := rfl
  obtain ⟨s1, e1, i1⟩ := hI.push (by rw [hx, hc]; omega) a
  obtain ⟨s2, e2, i2⟩ := i1.push (by show T.count + 1 < growMax T.count T.max; omega) b
  obtain ⟨s3, e3, i3⟩ := i2.push (by show T.count + 1 + 1 < growMax T.count T.max; omega) c
  refine ⟨⟨s3, T.count + 3, T.n + 3, growMax T.count T.max⟩, ?_, ?_, rfl⟩
  · unfold Tbl.create3
    have e2' : s1.wr (T.count + 1) (.obj b) = .ok s2 := e2
    have e3' : s2.wr (T.count + 2) (.obj c) = .ok s3 := e3
    simp only [hc, hx] at e1 ⊢
    rw [e1]
    simp only [Res.bind_ok, e2', e3']
    rfl
  · have k1 : (((T.count + 1 : Nat) : Int)) = (T.count : Int) + 1 := by push_cast; rfl
    have k2 : (((T.count + 1 + 1 : Nat) : Int)) = (T.count : Int) + 2 := by push_cast; omega
    have k3 : T.n + 1 + 1 + 1 = T.n + 3 := by omega
    have i3' : Inv ⟨s3, T.count + 1 + 1 + 1, T.n + 1 + 1 + 1, growMax T.count T.max⟩
      (Function.update (Function.update (Function.update L T.count (some a)) ((T.count + 1 : Nat) : Int) (some b))
        ((T.count + 1 + 1 : Nat) : Int) (some c)) := i3
    rw [k1, k2, k3] at i3'
    exact i3'

theorem Inv.empty : Inv (Tbl.empty : Tbl O) (fun _ => none) :=
  ⟨rfl, le_refl _, fun _ _ h => (by cases h), fun i hi => absurd hi (Nat.not_lt_zero i), (by simp [Tbl.empty, liveSet]),
    fun _ => rfl⟩

theorem destroy_ok {T : Tbl O} {L : Int → Option O} (h : Inv T L) {i : Int} {o : O} (hi : L i = some o) :
    T.destroy i false = .ok (T, i, false) ∧
    ∃ T', T.destroy i true = .ok (T', fnull, true) ∧ Inv T' (Function.update L i none) ∧
      ((∀ j, j ≠ i → L j = none) → T' = Tbl.empty) ∧ ((∃ j, j ≠ i ∧ L j ≠ none) → T'.count = T.count) := by
  obtain ⟨h1, h2, h3⟩ := h.live i o hi
  have hl : i.toNat < T.slots.len := by rw [h.len]; have := h.le; omega
  have hne : i ≠ fnull := by unfold fnull; omega
  have hrd : T.slots.rdI i = .ok (.obj o) := by
    rw [Buf.rdI, if_pos h1, Buf.rd_lt hl, h3]
  refine ⟨?_, ?_⟩
  · unfold Tbl.destroy
    rw [if_neg hne, hrd]
    simp
  · have hset : liveSet (Function.update L i none) T.count = (liveSet L T.count).erase i.toNat := by
      ext j
      simp only [liveSet, mem_filter, mem_range, mem_erase]
      by_cases hj : (j : Int) = i
      · rw [hj, Function.update_self]
        have : j = i.toNat := by omega
        simp [this]
      · rw [Function.update_of_ne hj]
        have : j ≠ i.toNat := by omega
        simp [this]
    have hmem : i.toNat ∈ liveSet L T.count := by
      simp only [liveSet, mem_filter, mem_range]
      refine ⟨by omega, ?_⟩
      rw [Int.toNat_of_nonneg h1, hi]; rfl
    have hn : T.n - 1 = ((liveSet (Function.update L i none) T.count).card : Int) := by
      rw [hset, card_erase_of_mem hmem, h.n]
      have := card_pos.2 ⟨_, hmem⟩
      omega
    have hrun : T.destroy i true = .ok (if T.n - 1 = 0 then Tbl.empty else
        { T with slots := ⟨T.slots.len, fun j => if j = i.toNat then .null else T.slots.val j⟩, n := T.n - 1 }, fnull, true) := by
      unfold Tbl.destroy
      rw [if_neg hne, hrd]
      simp only [Res.bind_ok, if_true, Buf.wrI, if_pos h1, Buf.wr_lt hl]
    have h0 : T.n - 1 = 0 ↔ ∀ j, j ≠ i → L j = none := by
      rw [hn]
      constructor
      · intro hz j hj
        have hz' : liveSet (Function.update L i none) T.count = ∅ := card_eq_zero.1 (by exact_mod_cast hz)
        cases hlj : L j with
        | none => rfl
        | some x =>
          obtain ⟨a1, a2, _⟩ := h.live j x hlj
          have : j.toNat ∈ liveSet (Function.update L i none) T.count := by
            simp only [liveSet, mem_filter, mem_range]
            refine ⟨by omega, ?_⟩
            rw [Int.toNat_of_nonneg a1, Function.update_of_ne hj, hlj]; rfl
          rw [hz'] at this
          simp at this
      · intro hall
        have : liveSet (Function.update L i none) T.count = ∅ := by
          rw [liveSet, filter_eq_empty_iff]
          intro j _
          by_cases hj : (j : Int) = i
          · rw [hj, Function.update_self]; simp
          · rw [Function.update_of_ne hj, hall _ hj]; simp
        rw [this]; rfl
    refine ⟨_, hrun, ?_, fun hall => if_pos (h0.2 hall), fun ⟨j, hj1, hj2⟩ => ?_⟩
    · split
      · rename_i hz
        have : Function.update L i none = fun _ => none := by
          funext j
          by_cases hj : j = i
          · rw [hj, Function.update_self]
          · rw [Function.update_of_ne hj, h0.1 hz j hj]
        rw [this]
        exact Inv.empty
      · rename_i hz
        refine ⟨h.len, h.le, fun j x hj => ?_, fun j hj hlj => ?_, hn, fun hh => absurd hh hz⟩
        · by_cases hji : j = i
          · rw [hji, Function.update_self] at hj; cases hj
          · rw [Function.update_of_ne hji] at hj
            obtain ⟨a1, a2, a3⟩ := h.live j x hj
            refine ⟨a1, a2, ?_⟩
            show (if j.toNat = i.toNat then _ else _) = _
            rw [if_neg (by omega), a3]
        · show (if j = i.toNat then _ else _) = _
          by_cases hji : (j : Int) = i
          · rw [if_pos (by omega)]
          · rw [Function.update_of_ne hji] at hlj
            rw [if_neg (by omega)]
            exact h.dead j hj hlj
    · rw [if_neg (fun hz => hj2 (h0.1 hz j hj1))]

theorem Reach.inv {T : Tbl O} {vs : Nat → Int} {L : Int → Option O} (h : Reach T vs L) : Inv T L := by
  induction h with
  | start vs => exact Inv.empty
  | create v o _ e ih =>
    obtain ⟨T2, e2, i2, _⟩ := create_ok ih o
    rw [e] at e2
    cases e2
    exact i2
  | createFails c _ e ih =>
    obtain ⟨T2, e2, i2, _⟩ := createFails_ok ih c
    rw [e] at e2
    cases e2
    exact i2
  | create3 v1 v2 v3 a b c _ e ih =>
    obtain ⟨T2, e2, i2, _⟩ := create3_ok ih a b c
    rw [e] at e2
    cases e2
    exact i2
  | copy v w _ ih => exact ih
  | @destroy T T' vs L h v good _ hl e ih =>
    rcases hl with hl | hl
    · rw [hl] at e ⊢
      unfold Tbl.destroy at e
      rw [if_pos rfl] at e
      cases e
      have : Function.update L fnull none = L := by
        rw [Function.update_eq_self_iff]
        exact (ih.above (Or.inr (by decide))).symm
      rw [this]
      exact ih
    · obtain ⟨o, ho⟩ := Option.isSome_iff_exists.1 hl
      obtain ⟨d1, T2, d2, d3, _⟩ := destroy_ok ih ho
      cases good with
      | true => rw [d2] at e; cases e; exact d3
      | false => rw [d1] at e; cases e
  | @destroyFails T T' vs L h v good _ hl e ih =>
    rcases hl with hl | hl
    · rw [hl] at e
      unfold Tbl.destroy at e
      rw [if_pos rfl] at e
      cases e
    · obtain ⟨o, ho⟩ := Option.isSome_iff_exists.1 hl
      obtain ⟨d1, T2, d2, d3, _⟩ := destroy_ok ih ho
      cases good with
      | true => rw [d2] at e; cases e
      | false => rw [d1] at e; cases e; exact ih

/-! ## Properties -/

/-- A handle designates the object it was made for, until this object is destroyed, whatever is created, copied and destroyed in
between and however often the table moves. -/
theorem C59_designates_partial {T : Tbl O} {vs : Nat → Int} {L : Int → Option O} (h : Reach T vs L) {i : Int} {o : O}
    (hi : L i = some o) : T.lookup i = .ok (.obj o) := by
  obtain ⟨h1, h2, h3⟩ := h.inv.live i o hi
  have hl : i.toNat < T.slots.len := by rw [h.inv.len]; have := h.inv.le; omega
  unfold Tbl.lookup
  rw [Buf.rdI, if_pos h1, Buf.rd_lt hl, h3]

/-- Creation is defined, and the handle it gives is not one of those in use, nor one of the constants. -/
theorem C59_fresh {T : Tbl O} {vs : Nat → Int} {L : Int → Option O} (h : Reach T vs L) (o : O) :
    ∃ T' i, T.create (.ok o) = .ok (T', some i) ∧ L i = none ∧ 0 ≤ i := by
  obtain ⟨T', e, _⟩ := create_ok h.inv o
  exact ⟨T', _, e, h.inv.above (Or.inl (le_refl _)), by omega⟩

/-- The same for the three operators of a multigrid level. -/
theorem C59_fresh_three {T : Tbl O} {vs : Nat → Int} {L : Int → Option O} (h : Reach T vs L) (a b c : O) :
    ∃ T' i j k, T.create3 a b c = .ok (T', i, j, k) ∧ L i = none ∧ L j = none ∧ L k = none ∧ i ≠ j ∧ i ≠ k ∧ j ≠ k ∧
      0 ≤ i ∧ 0 ≤ j ∧ 0 ≤ k := by
  obtain ⟨T', e, _⟩ := create3_ok h.inv a b c
  exact ⟨T', _, _, _, e, h.inv.above (Or.inl (by omega)), h.inv.above (Or.inl (by omega)), h.inv.above (Or.inl (by omega)),
    by omega, by omega, by omega, by omega, by omega, by omega⟩

/-- A handle is not given out again as long as any object of its kind exists. -/
theorem C59_no_reuse {T T' : Tbl O} {vs vs' : Nat → Int} {L L' : Int → Option O} (h : Reach T vs L) {i : Int} {o : O} {good : Bool}
    {h' : Int} (hi : L i = some o) (hj : ∃ j, j ≠ i ∧ L j ≠ none) (e : T.destroy i good = .ok (T', h', true))
    (e' : Reach T' vs' L') (x : O) : ∀ T'' k, T'.create (.ok x) = .ok (T'', some k) → k ≠ i := by
  intro T'' k ek
  obtain ⟨d1, T2, d2, _, _, d4⟩ := destroy_ok h.inv hi
  have : T' = T2 := by
    cases good with
    | true => rw [d2] at e; cases e; rfl
    | false => rw [d1] at e; cases e
  subst this
  obtain ⟨T3, e3, _⟩ := create_ok e'.inv x
  rw [ek] at e3
  cases e3
  rw [d4 hj]
  have := (h.inv.live i o hi).2.1
  omega

/-- Creation that fails is defined and changes no handle. -/
theorem C59_failure {T : Tbl O} {vs : Nat → Int} {L : Int → Option O} (h : Reach T vs L) (c : Option (Slot O)) :
    ∃ T', T.create (.fail c) = .ok (T', none) ∧ ∀ i o, L i = some o → T'.lookup i = .ok (.obj o) := by
  obtain ⟨T', e, _⟩ := createFails_ok h.inv c
  exact ⟨T', e, fun i o hi => C59_designates_partial (Reach.createFails c h e) hi⟩

/-- Destruction of an object is defined. The variable becomes `FORTRAN_NULL`, destroying that does nothing, other handles keep
their objects, and with the last object the table is freed. -/
theorem C59_destroy {T : Tbl O} {vs : Nat → Int} {L : Int → Option O} (h : Reach T vs L) {i : Int} {o : O} (hi : L i = some o) :
    ∃ T', T.destroy i true = .ok (T', fnull, true) ∧ (∀ j x, j ≠ i → L j = some x → T'.lookup j = .ok (.obj x)) ∧
      (∀ good, T'.destroy fnull good = .ok (T', fnull, true)) ∧ ((∀ j, j ≠ i → L j = none) → T' = Tbl.empty) := by
  obtain ⟨_, T', d2, d3, d4, _⟩ := destroy_ok h.inv hi
  refine ⟨T', d2, fun j x hj hx => ?_, fun good => by unfold Tbl.destroy; rw [if_pos rfl], d4⟩
  obtain ⟨a1, a2, a3⟩ := d3.live j x (by rw [Function.update_of_ne hj]; exact hx)
  unfold Tbl.lookup
  have hl : j.toNat < T'.slots.len := by rw [d3.len]; have := d3.le; omega
  rw [Buf.rdI, if_pos a1, Buf.rd_lt hl, a3]

/-- A destruction that is refused leaves everything as it is. -/
theorem C59_refused {T : Tbl O} {vs : Nat → Int} {L : Int → Option O} (h : Reach T vs L) {i : Int} {o : O} (hi : L i = some o) :
    T.destroy i false = .ok (T, i, false) := (destroy_ok h.inv hi).1

/-- After all objects are destroyed, handles start at zero again. -/
theorem C59_restart {T : Tbl O} {vs : Nat → Int} {L : Int → Option O} (h : Reach T vs L) (hL : ∀ i, L i = none) (o : O) :
    ∃ T', T.create (.ok o) = .ok (T', some 0) := by
  have hn : T.n = 0 := by
    rw [h.inv.n]
    have : liveSet L T.count = ∅ := by
      rw [liveSet, filter_eq_empty_iff]
      intro j _
      rw [hL]; simp
    rw [this]; rfl
  obtain ⟨T', e, _⟩ := create_ok h.inv o
  rw [h.inv.zero hn] at e
  exact ⟨T', e⟩

/-- What an integer argument means to `CeedOperatorSetField`: handles are objects, constants what their names say. -/
theorem C59_set_field {T : Tbl O} {vs : Nat → Int} {L : Int → Option O} (h : Reach T vs L) :
    T.vecSetField fnull = .ok .null ∧ T.vecSetField factive = .ok .active ∧ T.vecSetField fnone = .ok .none ∧
    (∀ c, c ≠ fnull → T.objSetField c fnull = .ok .null ∧ T.objSetField c c = .ok .none) ∧
    ∀ i o, L i = some o → T.vecSetField i = .ok (.slot (.obj o)) ∧
      ∀ c, c < 0 → T.objSetField c i = .ok (.slot (.obj o)) := by
  refine ⟨rfl, rfl, rfl, fun c hc => ⟨rfl, ?_⟩, fun i o hi => ?_⟩
  · unfold Tbl.objSetField; rw [if_neg hc, if_pos rfl]
  · have h0 := (h.inv.live i o hi).1
    have e := C59_designates_partial h hi
    refine ⟨?_, fun c hc => ?_⟩
    · unfold Tbl.vecSetField fnull factive fnone
      rw [if_neg (by omega), if_neg (by omega), if_neg (by omega), e]
      rfl
    · unfold Tbl.objSetField fnull
      rw [if_neg (by omega), if_neg (by omega), e]
      rfl

/-- The same for the vectors of `CeedOperatorApply`, `CeedBasisApply`, `CeedOperatorApplyAdd` and `CeedQFunctionApply`, without
`CEED_VECTOR_NONE` for the last two (see the witness). -/
theorem C59_apply_partial {T : Tbl O} {vs : Nat → Int} {L : Int → Option O} (h : Reach T vs L) :
    T.vecApply fnull = .ok .null ∧ T.vecApply fnone = .ok .none ∧ T.vecBasis fnone = .ok .none ∧ T.vecApplyAdd fnull = .ok .null ∧
    ∀ i o, L i = some o → T.vecApply i = .ok (.slot (.obj o)) ∧ T.vecBasis i = .ok (.slot (.obj o)) ∧
      T.vecApplyAdd i = .ok (.slot (.obj o)) := by
  refine ⟨rfl, rfl, rfl, rfl, fun i o hi => ?_⟩
  have h0 := (h.inv.live i o hi).1
  have e := C59_designates_partial h hi
  refine ⟨?_, ?_, ?_⟩
  · unfold Tbl.vecApply fnull fnone
    rw [if_neg (by omega), if_neg (by omega), e]; rfl
  · unfold Tbl.vecBasis fnone
    rw [if_neg (by omega), e]; rfl
  · unfold Tbl.vecApplyAdd fnull
    rw [if_neg (by omega), e]; rfl

/-- Strings of at most 1023 characters arrive unchanged. -/
theorem C59_string_partial (s : Buf UInt8) (hl : s.len ≤ 1023) (h0 : ∀ i < s.len, s.val i ≠ 0) :
    fixString s = .ok s.toList := by
  unfold fixString
  rw [if_pos hl]
  have : s.toList.takeWhile (· ≠ 0) = s.toList := by
    have key : ∀ l : List UInt8, (∀ x ∈ l, x ≠ 0) → l.takeWhile (· ≠ 0) = l := by
      intro l
      induction l with
      | nil => intro _; rfl
      | cons a l ih =>
        intro hl
        rw [List.takeWhile_cons, if_pos (by simpa using hl a (by simp)), ih (fun x hx => hl x (by simp [hx]))]
    refine key _ fun x hx => ?_
    obtain ⟨i, hi, rfl⟩ := List.mem_map.1 hx
    simpa using h0 i (by simpa using hi)
  rw [this]

/-- Creation of a QFunction with Fortran code, if the C interface creates it. -/
theorem C59_interior_partial {T : Tbl O} {vs : Nat → Int} {L : Int → Option O} (h : Reach T vs L) (o : O) (rest : Bool) :
    ∃ T' i, createInterior T (.ok o) rest = .ok (T', some i, rest) ∧ T.create (.ok o) = .ok (T', some i) := by
  obtain ⟨T', e, hI, hc⟩ := create_ok h.inv o
  refine ⟨T', _, ?_, e⟩
  obtain ⟨a1, a2, a3⟩ := hI.live T.count o (Function.update_self _ _ _)
  unfold createInterior
  rw [e]
  simp only [Res.bind_ok]
  have : T'.count - 1 = T.count := by omega
  rw [this, Buf.rd_lt (by rw [hI.len]; have := hI.le; omega)]
  have a4 : T'.slots.val T.count = .obj o := by simpa using a3
  simp only [Res.bind_ok, a4]

/-- Without a context, an error in the Fortran function is reported; with a context, errors of its access are. -/
theorem C59_stub_partial (f : Int) : stub none f = f ∧ ∀ g r, g ≠ 0 → stub (some (g, r)) f = g := by
  refine ⟨rfl, fun g r hg => ?_⟩
  unfold stub
  simp only [ne_eq, hg, not_false_eq_true, if_true]

/-- A context set for a QFunction is used by its evaluations as long as the program does not destroy it. -/
theorem C59_context_partial {w w' : Ctx} {c : Nat} (e : w.set c = .ok w') : w'.eval = .ok (some c) := by
  unfold Ctx.set at e
  split at e
  · cases e
  · rename_i h
    cases e
    unfold Ctx.eval
    simp only [if_neg h]

end Fortran
end Verif
