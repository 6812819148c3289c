import Verif.Operator.Props
import Verif.Operator.AssembleSpec
import Verif.Operator.Opt

/-!
# Restriction of inputs for backends with blocks (helper lemmas)

`setupInputs` for any meaning `G i b u` of "the E-vector of input `i` holds the restriction of `u`"; compare
`Verif/Operator/Inputs.lean`.
-/

set_option linter.unusedSectionVars false

namespace Verif
namespace Operator

open Finset
open Restriction (RData Made Rstr)
open Basis (Bas EMode)

variable {α : Type} [CommRing α]

/-- Inputs that are restricted. -/
def GLive (sk : Bool) (op : Oper α) (i : Nat) : Prop :=
  (op.inp i).mode ≠ .weight ∧ ¬ ((op.inp i).vec = .active ∧ sk = true)

/-- Readiness of one input that is restricted. -/
def GReadyI (sk : Bool) (inv : VPtr) (op : Oper α) (s : St α) (i : Nat) : Prop :=
  GLive sk op i → ∃ r v, (op.inp i).rid = some r ∧ (op.inp i).vec.ptr inv = .vec v ∧
    (s.vecs v).valid = true ∧ (op.rstrs r).lSize ≤ (s.vecs v).buf.len

theorem glive_same {sk : Bool} {op : Oper α} {i j : Nat} (h : (op.inp i).same (op.inp j) = true)
    (hi : (op.inp i).mode ≠ .weight) (hj : GLive sk op j) : GLive sk op i :=
  ⟨hi, by rw [(same_iff.1 h).1]; exact hj.2⟩

/-- What the restrictions of the inputs do. -/
structure GCtx (op : Oper α) (G : Nat → Buf α → (Nat → α) → Prop) : Prop where
  rid : ∀ i < op.nin, (op.inp i).mode ≠ .weight → ∃ r, (op.inp i).rid = some r
  share : ∀ i < op.nin, (op.inp i).mode ≠ .weight → (op.inp (first op i)).mode ≠ .weight
  gather : ∀ i < op.nin, (op.inp i).mode ≠ .weight → ∀ r, (op.inp i).rid = some r → ∀ u v : Buf α,
    (op.rstrs r).lSize ≤ u.len → v.len = eSizeOf op (op.inp i) →
    ∃ v', Restriction.apply (op.rstrs r) .plain .noTranspose u v = .ok v' ∧ v'.len = v.len ∧ G i v' u.val
  gsame : ∀ i j b u, (op.inp i).same (op.inp j) = true → G i b u → G j b u

/-- What is known of a cached E-vector. -/
def CacheG (op : Oper α) (G : Nat → Buf α → (Nat → α) → Prop) (s : St α) (i : Nat) : Prop :=
  match (op.inp i).vec with
  | .active => True
  | .none => s.impl.states i = 0 ∧ s.impl.eInOk i = false
  | .vec v => s.impl.states i ≤ (s.vecs v).state ∧ (s.impl.states i = (s.vecs v).state →
      ((s.vecs v).state = 0 ∧ s.impl.eInOk i = false) ∨
      ((s.vecs v).valid = true ∧ (∃ r, (op.inp i).rid = some r ∧ (op.rstrs r).lSize ≤ (s.vecs v).buf.len) ∧
        s.impl.eInOk i = true ∧ G i (s.impl.eIn i) (s.vecs v).buf.val))

/-- Part of the invariant that concerns the inputs. -/
structure GInv (op : Oper α) (G : Nat → Buf α → (Nat → α) → Prop) (s : St α) : Prop where
  full : ∀ i < op.nin, (op.inp i).mode ≠ .weight → s.impl.it.full i = some (first op i)
  skip : ∀ i < op.nin, (s.impl.it.skip i = true ↔ first op i < i)
  eIn : ∀ i < op.nin, (s.impl.eIn i).len = eSizeOf op (op.inp i)
  vz : ∀ v, (s.vecs v).state = 0 → (s.vecs v).valid = false
  cache : ∀ i < op.nin, (op.inp i).mode ≠ .weight → first op i = i → CacheG op G s i

/-- Number of readers of the E-vector `k` after the inputs `< j` have been locked. -/
noncomputable def greaders (sk : Bool) (op : Oper α) (j k : Nat) : Nat :=
  open Classical in ((range j).filter (fun i => GLive sk op i ∧ first op i = k)).card

theorem greaders_succ (sk : Bool) (op : Oper α) (j k : Nat) : greaders sk op (j + 1) k =
    greaders sk op j k + (open Classical in if GLive sk op j ∧ first op j = k then 1 else 0) := by
  unfold greaders
  rw [Finset.range_add_one, Finset.filter_insert]
  split
  · rw [Finset.card_insert_of_notMem (by simp)]
  · rfl

theorem greaders_zero (sk : Bool) (op : Oper α) {j k : Nat} (h : j ≤ k) : greaders sk op j k = 0 := by
  classical
  unfold greaders
  rw [Finset.card_eq_zero, Finset.filter_eq_empty_iff]
  intro i hi
  have := first_le op i
  rw [mem_range] at hi
  rintro ⟨_, h2⟩
  omega

/-- State during the input restriction, after the inputs `< j`. -/
structure GLoop (op : Oper α) (G : Nat → Buf α → (Nat → α) → Prop) (sk : Bool) (inv : VPtr) (s0 s : St α) (j : Nat) : Prop where
  vecs : s.vecs = s0.vecs
  eptr : s.eptr = s0.eptr
  done : s.impl.done = s0.impl.done
  idR : s.impl.idRstr = s0.impl.idRstr
  it : s.impl.it = s0.impl.it
  ot : s.impl.ot = s0.impl.ot
  q : s.impl.qIn = s0.impl.qIn
  eOut : s.impl.eOut = s0.impl.eOut
  wr : s.impl.wr = s0.impl.wr
  len : ∀ i < op.nin, (s.impl.eIn i).len = eSizeOf op (op.inp i)
  ready : ∀ i < j, GReadyI sk inv op s0 i
  gath : ∀ i < j, GLive sk op i → ∀ v, (op.inp i).vec.ptr inv = .vec v →
    s.impl.eInOk (first op i) = true ∧ G i (s.impl.eIn (first op i)) (s0.vecs v).buf.val
  rest : ∀ i, j ≤ i → s.impl.states i = s0.impl.states i ∧ s.impl.eIn i = s0.impl.eIn i ∧
    s.impl.eInOk i = s0.impl.eInOk i
  st : ∀ i < j, GLive sk op i → s.impl.states i = s0.stateOf ((op.inp i).vec.ptr inv)
  rd : ∀ k, s.impl.rd k = s0.impl.rd k + greaders sk op j k

/-- The invariant holds during the input restriction, so also if it fails. -/
theorem GLoop.inv {op : Oper α} {G : Nat → Buf α → (Nat → α) → Prop} {sk : Bool} {inv : VPtr} {s0 s : St α} {j : Nat} (hs : GLoop op G sk inv s0 s j)
    (h0 : GInv op G s0) : GInv op G s := by
  refine ⟨hs.it ▸ h0.full, hs.it ▸ h0.skip, hs.len, hs.vecs ▸ h0.vz, ?_⟩
  intro i hi hw hf
  by_cases ha : (op.inp i).vec = .active
  · unfold CacheG; rw [ha]; trivial
  by_cases hij : i < j
  · unfold CacheG
    have hw : GLive sk op i := ⟨hw, fun hh => ha hh.1⟩
    have hst := hs.st i hij hw
    obtain ⟨r, v, h1, h2, h3, h4⟩ := hs.ready i hij hw
    obtain ⟨h5, h6⟩ := hs.gath i hij hw v h2
    rw [hf] at h5 h6
    match hvec : (op.inp i).vec with
    | .active => trivial
    | .none => rw [hvec] at h2; cases h2
    | .vec v' =>
      rw [hvec] at h2 hst; cases h2
      rw [hs.vecs]
      have hst' : s.impl.states i = (s0.vecs v).state := hst
      exact ⟨hst'.le, fun _ => Or.inr ⟨h3, ⟨r, h1, h4⟩, h5, h6⟩⟩
  · obtain ⟨h1, h2, h3⟩ := hs.rest i (by omega)
    have := h0.cache i hi hw hf
    unfold CacheG at this ⊢
    rw [h1, h2, h3, hs.vecs]
    exact this

theorem setupGen_wp {op : Oper α} {G : Nat → Buf α → (Nat → α) → Prop} {sk : Bool} {inv : VPtr} (h : GCtx op G) {s0 : St α} (hi0 : GInv op G s0)
    {R : Prop} (hR : R → ∀ i < op.nin, GReadyI sk inv op s0 i) (hU : R → Unlocked s0) :
    M.wp R (setupInputs op inv sk) s0 (fun s _ => GLoop op G sk inv s0 s op.nin) (fun s _ => ¬ R ∧ ∃ j, GLoop op G sk inv s0 s j) := by
  unfold setupInputs
  refine M.wp_loop (fun j s => GLoop op G sk inv s0 s j) ?_ ?_
  · exact ⟨rfl, rfl, rfl, rfl, rfl, rfl, rfl, rfl, rfl, hi0.eIn, fun i hi => absurd hi (by omega),
      fun i hi => absurd hi (by omega), fun i _ => ⟨rfl, rfl, rfl⟩, fun i hi => absurd hi (by omega),
      fun k => by rw [greaders_zero sk op (Nat.zero_le _)]; rfl⟩
  intro i hi s hs
  unfold setupInput
  by_cases hl : GLive sk op i
  swap
  · have e1 : (if (op.inp i).vec = .active ∧ sk = true then (pure () : M (St α) Unit)
        else if (op.inp i).mode = .weight then pure ()
        else do
          let s ← getS
          restrictIf op inv ((op.inp i).vec.ptr inv) i
          modI (fun c => { c with states := Function.update c.states i (s.stateOf ((op.inp i).vec.ptr inv)) })
          lockRead i) = pure () := by
      by_cases ha : (op.inp i).vec = .active ∧ sk = true
      · rw [if_pos ha]
      · rw [if_neg ha, if_pos (by by_contra hm; exact hl ⟨hm, ha⟩)]
    rw [e1, M.wp_pure]
    have hsucc : ∀ j, j < i + 1 → GLive sk op j → j < i := by
      intro j hj hm
      have : j ≠ i := by rintro rfl; exact hl hm
      omega
    exact ⟨hs.vecs, hs.eptr, hs.done, hs.idR, hs.it, hs.ot, hs.q, hs.eOut, hs.wr, hs.len,
      fun j hj hm => hs.ready j (hsucc j hj hm) hm, fun j hj hm => hs.gath j (hsucc j hj hm) hm,
      fun j hj => hs.rest j (by omega), fun j hj hm => hs.st j (hsucc j hj hm) hm,
      fun k => by rw [hs.rd, greaders_succ, if_neg (by rintro ⟨h1, _⟩; exact hl h1)]; rfl⟩
  obtain ⟨hw, hact⟩ := id hl
  rw [if_neg (fun hh => hact hh), if_neg hw]
  obtain ⟨r, hr⟩ := h.rid i hi hw
  have hfull : s.impl.it.full i = some (first op i) := by rw [hs.it]; exact hi0.full i hi hw
  have hskip : s.impl.it.skip i = true ↔ first op i < i := by rw [hs.it]; exact hi0.skip i hi
  have hst : ∀ p, s.stateOf p = s0.stateOf p := by
    intro p; unfold St.stateOf; rw [hs.vecs]
  set p := (op.inp i).vec.ptr inv with hp
  -- after the restriction step
  have tail : ∀ s1 : St α, s1.vecs = s0.vecs → s1.eptr = s0.eptr → s1.impl.done = s0.impl.done →
      s1.impl.idRstr = s0.impl.idRstr → s1.impl.it = s0.impl.it → s1.impl.ot = s0.impl.ot → s1.impl.qIn = s0.impl.qIn →
      s1.impl.eOut = s0.impl.eOut → s1.impl.wr = s0.impl.wr → s1.impl.rd = s.impl.rd → s1.impl.states = s.impl.states →
      (∀ k, k ≠ i → s1.impl.eIn k = s.impl.eIn k ∧ s1.impl.eInOk k = s.impl.eInOk k) →
      (s1.impl.eIn i).len = eSizeOf op (op.inp i) → GReadyI sk inv op s0 i →
      (∀ v, p = .vec v → s1.impl.eInOk (first op i) = true ∧
        G i (s1.impl.eIn (first op i)) (s0.vecs v).buf.val) →
      M.wp R (do
        modI (fun c => { c with states := Function.update c.states i (s.stateOf p) })
        lockRead i) s1 (fun s _ => GLoop op G sk inv s0 s (i + 1)) (fun s _ => ¬ R ∧ ∃ j, GLoop op G sk inv s0 s j) := by
    intro s1 a1 a2 a3 a4 a5 a6 a7 a8 a9 a10 a11 a12 a13 a14 a15
    obtain ⟨_, v, _, hv, _⟩ := a14 hl
    obtain ⟨hok, _⟩ := a15 v hv
    have hfull1 : s1.impl.it.full i = some (first op i) := by rw [a5, ← hs.it]; exact hfull
    refine M.wp_of_eq_ok (s' := { s1 with impl := { s1.impl with
      states := Function.update s1.impl.states i (s.stateOf p),
      rd := Function.update s1.impl.rd (first op i) (s1.impl.rd (first op i) + 1) } }) (a := ()) ?_ ?_
    · simp only [M.bind_apply, modI, Out.bind_ok]
      refine (lockRead_eq i _ (k := first op i) ?_).trans (if_pos ?_)
      · exact hfull1
      · exact hok
    · refine ⟨a1, a2, a3, a4, a5, a6, a7, a8, a9, ?_, ?_, ?_, ?_, ?_, ?_⟩
      · intro j hj
        by_cases hji : j = i
        · subst hji; exact a13
        · show (s1.impl.eIn j).len = _
          rw [(a12 j hji).1]; exact hs.len j hj
      · intro j hj
        by_cases hji : j = i
        · subst hji; exact a14
        · exact hs.ready j (by omega)
      · intro j hj hm v1 hv1
        by_cases hji : j = i
        · subst hji; exact a15 v1 hv1
        · have hfj : first op j ≠ i := by have := first_le op j; omega
          obtain ⟨b1, b2⟩ := hs.gath j (by omega) hm v1 hv1
          show s1.impl.eInOk (first op j) = true ∧ G _ (s1.impl.eIn (first op j)) _
          rw [(a12 _ hfj).1, (a12 _ hfj).2]
          exact ⟨b1, b2⟩
      · intro j hj
        have hji : j ≠ i := by omega
        show Function.update s1.impl.states i _ j = _ ∧ s1.impl.eIn j = _ ∧ s1.impl.eInOk j = _
        rw [Function.update_of_ne hji, (a12 j hji).1, (a12 j hji).2, a11]
        exact hs.rest j (by omega)
      · intro j hj hm
        show Function.update s1.impl.states i _ j = _
        by_cases hji : j = i
        · subst hji; rw [Function.update_self, hst]
        · rw [Function.update_of_ne hji, a11]; exact hs.st j (by omega) hm
      · intro k
        show Function.update s1.impl.rd (first op i) _ k = _
        rw [greaders_succ]
        by_cases hk : k = first op i
        · subst hk
          rw [Function.update_self, a10, hs.rd, if_pos ⟨hl, rfl⟩, Nat.add_assoc]
        · rw [Function.update_of_ne hk, a10, hs.rd, if_neg (by rintro ⟨_, h2⟩; exact hk h2.symm)]; rfl
  rw [M.wp_bind]
  refine M.wp_of_eq_ok (s' := s) (a := s) rfl ?_
  rw [M.wp_bind]
  unfold restrictIf
  rw [M.wp_bind]
  refine M.wp_of_eq_ok (s' := s) (a := s) rfl ?_
  by_cases hsk : s.impl.it.skip i = true
  · -- shared with an earlier input
    have hlt := hskip.1 hsk
    rw [if_neg (by simp [hsk]), M.wp_pure]
    have hsame := first_same op i
    have hm1 : (op.inp (first op i)).mode ≠ .weight := h.share i hi hw
    have hm1 := glive_same hsame hm1 hl
    have hpe : (op.inp (first op i)).vec.ptr inv = p := by rw [(same_iff.1 hsame).1]
    have hrd : GReadyI sk inv op s0 i := by
      intro _
      obtain ⟨r', v, b1, b2, b3⟩ := hs.ready (first op i) hlt hm1
      exact ⟨r', v, by rw [← (same_iff.1 hsame).2]; exact b1, by rw [← hp, ← hpe]; exact b2, b3⟩
    refine tail s hs.vecs hs.eptr hs.done hs.idR hs.it hs.ot hs.q hs.eOut hs.wr rfl rfl (fun _ _ => ⟨rfl, rfl⟩)
      (hs.len i hi) hrd ?_
    intro v hv
    have := hs.gath (first op i) hlt hm1 v (by rw [hpe]; exact hv)
    rw [first_first] at this
    exact ⟨this.1, h.gsame _ _ _ _ hsame this.2⟩
  have hsk' : s.impl.it.skip i = false := by simpa using hsk
  have hfi : first op i = i := by
    have := first_le op i
    by_contra hne
    exact hsk (hskip.2 (by omega))
  rw [hfi] at hfull tail
  have hcache := hi0.cache i hi hw hfi
  obtain ⟨hrest1, hrest2, hrest3⟩ := hs.rest i le_rfl
  by_cases hc : s.stateOf p ≠ s.impl.states i ∨ p = inv
  · rw [if_pos ⟨hc, hsk'⟩]
    by_cases hrd : GReadyI sk inv op s0 i
    · obtain ⟨r', v, b1, b2, b3, b4⟩ := hrd hl
      rw [hr] at b1; cases b1
      by_cases hrd0 : s.impl.rd i = 0
      swap
      · refine M.wp_of_eq_err (s' := s) (a := .access) ?_ ⟨fun hr' => hrd0 ?_, ⟨i, hs⟩⟩
        · rw [restrictIn_eq op i p s hr hfull, show p = .vec v from b2]
          simp only [readVec, hs.vecs, b3, if_true, Out.bind_ok, M.check_false hrd0, Out.bind_err]
        · rw [hs.rd, greaders_zero sk op le_rfl, (hU hr').1]
      obtain ⟨v', e1, e2, e3⟩ := h.gather i hi hw r hr (s0.vecs v).buf (s.impl.eIn i) b4 (hs.len i hi)
      have hrun : restrictIn op i p s = .ok { s with impl := { s.impl with
          eIn := Function.update s.impl.eIn i v', eInOk := Function.update s.impl.eInOk i true } } () := by
        rw [restrictIn_eq op i p s hr hfull, show p = .vec v from b2]
        simp only [readVec, hs.vecs, b3, if_true, Out.bind_ok, M.check_true hrd0, e1, M.lift_ok, modI]
      refine M.wp_of_eq_ok hrun ?_
      refine tail _ hs.vecs hs.eptr hs.done hs.idR hs.it hs.ot hs.q hs.eOut hs.wr rfl rfl ?_ ?_ hrd ?_
      · intro k hk
        exact ⟨Function.update_of_ne hk _ _, Function.update_of_ne hk _ _⟩
      · show (Function.update s.impl.eIn i v' i).len = _
        rw [Function.update_self, e2]; exact hs.len i hi
      · intro v1 hv1
        rw [show p = .vec v from b2] at hv1; cases hv1
        show Function.update s.impl.eInOk i true i = true ∧ G _ (Function.update s.impl.eIn i v' i) _
        rw [Function.update_self, Function.update_self]
        exact ⟨rfl, e3⟩
    · have hnR : ¬ R := fun hr' => hrd (hR hr' i hi)
      have herr : (∃ e, restrictIn op i p s = .err s e) ∨ restrictIn op i p s = .ub := by
        rw [restrictIn_eq op i p s hr hfull]
        match hpp : p with
        | .null => exact Or.inr rfl
        | .none => exact Or.inl ⟨_, rfl⟩
        | .vec v =>
          by_cases hval : (s.vecs v).valid = true
          · have hshort : ¬ (op.rstrs r).lSize ≤ (s.vecs v).buf.len := by
              intro hl
              rw [hs.vecs] at hval hl
              exact hrd (fun _ => ⟨r, v, hr, by rw [← hp], hval, hl⟩)
            by_cases hz : s.impl.rd i = 0
            · refine Or.inl ⟨.dimension, ?_⟩
              simp only [readVec, hval, if_true, Out.bind_ok, M.check_true hz, gather_short hshort, M.lift_err, Out.bind_err]
            · refine Or.inl ⟨.access, ?_⟩
              simp only [readVec, hval, if_true, Out.bind_ok, M.check_false hz, Out.bind_err]
          · refine Or.inl ⟨.backend, ?_⟩
            simp only [readVec, hval]
            simp
      rcases herr with ⟨e, he⟩ | he
      · exact M.wp_of_eq_err he ⟨hnR, ⟨i, hs⟩⟩
      · exact M.wp_of_eq_ub he hnR
  · rw [if_neg (by rintro ⟨h1, _⟩; exact hc h1), M.wp_pure]
    have hc1 : s.stateOf p = s.impl.states i := by by_contra hh; exact hc (Or.inl hh)
    have hc2 : p ≠ inv := fun hh => hc (Or.inr hh)
    have fail : s0.impl.eInOk i = false → ¬ GReadyI sk inv op s0 i → M.wp R (do
        modI (fun c => { c with states := Function.update c.states i (s.stateOf p) })
        lockRead i) s (fun s _ => GLoop op G sk inv s0 s (i + 1)) (fun s _ => ¬ R ∧ ∃ j, GLoop op G sk inv s0 s j) := by
      intro hf hnr
      refine M.wp_of_eq_err (s' := { s with impl := { s.impl with
        states := Function.update s.impl.states i (s.stateOf p) } }) (a := .backend) ?_ ⟨fun hr' => hnr (hR hr' i hi), ?_⟩
      swap
      · rw [hc1, Function.update_eq_self]
        exact ⟨i, hs⟩
      simp only [M.bind_apply, modI, Out.bind_ok]
      refine (lockRead_eq i _ (k := i) ?_).trans (if_neg ?_)
      · exact hfull
      · show ¬ s.impl.eInOk i = true
        rw [hrest3, hf]; simp
    unfold CacheG at hcache
    match hvec : (op.inp i).vec with
    | .active => rw [hvec] at hp; exact absurd hp hc2
    | .none =>
      rw [hvec] at hcache hp
      refine fail hcache.2 (fun hh => ?_)
      obtain ⟨_, v, _, b2, _⟩ := hh hl
      rw [hvec] at b2; cases b2
    | .vec v =>
      rw [hvec] at hcache hp
      have hpv : p = .vec v := hp
      have hstv : s0.impl.states i = (s0.vecs v).state := by
        rw [← hrest1, ← hc1, hst, hpv]; rfl
      rcases hcache.2 hstv with ⟨hz, hf⟩ | ⟨g1, ⟨r', g2, g3⟩, g4, g5⟩
      · refine fail hf (fun hh => ?_)
        obtain ⟨_, v', _, b2, b3, _⟩ := hh hl
        rw [hvec] at b2; cases b2
        rw [hi0.vz v hz] at b3; cases b3
      · refine tail s hs.vecs hs.eptr hs.done hs.idR hs.it hs.ot hs.q hs.eOut hs.wr rfl rfl (fun _ _ => ⟨rfl, rfl⟩)
          (hs.len i hi) (fun _ => ⟨r', v, g2, by rw [hvec]; rfl, g1, g3⟩) ?_
        intro v' hv'
        rw [hpv] at hv'; cases hv'
        rw [hrest2, hrest3]
        exact ⟨g4, g5⟩

/-! ## Restoring the passive inputs -/

theorem restoreGen_ok {op : Oper α} {G : Nat → Buf α → (Nat → α) → Prop} {sk : Bool} {inv : VPtr} {s : St α} (ht : ∀ i < op.nin, (op.inp i).mode ≠ .weight → s.impl.it.full i = some (first op i)) :
    ∃ rd, M.loop op.nin (restoreIn op sk) s = .ok { s with impl := { s.impl with rd := rd } } () ∧
      ∀ k, rd k = s.impl.rd k - greaders sk op op.nin k := by
  refine loop_ok (n := op.nin) (body := restoreIn op sk) (fun rd => { s with impl := { s.impl with rd := rd } })
    (fun j rd => ∀ k, rd k = s.impl.rd k - greaders sk op j k) (a := s.impl.rd)
    (fun k => by rw [greaders_zero sk op (Nat.zero_le _)]; rfl) ?_
  intro i hi rd hrd
  unfold restoreIn
  by_cases hl : GLive sk op i
  · obtain ⟨hw, ha⟩ := id hl
    rw [if_neg ha, if_neg hw]
    refine ⟨Function.update rd (first op i) (rd (first op i) - 1), ?_, ?_⟩
    · simp only [M.bind_apply, getS, Out.bind_ok, ht i hi hw, ptr, M.pure_apply, modI]
    · intro k
      rw [greaders_succ]
      by_cases hk : k = first op i
      · subst hk; rw [Function.update_self, hrd, if_pos ⟨hl, rfl⟩]; omega
      · rw [Function.update_of_ne hk, hrd, if_neg (by rintro ⟨_, h2⟩; exact hk h2.symm), add_zero]
  · refine ⟨rd, ?_, ?_⟩
    · by_cases ha : (op.inp i).vec = .active ∧ sk = true
      · rw [if_pos ha]; rfl
      · rw [if_neg ha, if_pos (by by_contra hm; exact hl ⟨hm, ha⟩)]; rfl
    · intro k
      rw [hrd, greaders_succ, if_neg (by rintro ⟨h1, _⟩; exact hl h1), add_zero]

end Operator
end Verif
