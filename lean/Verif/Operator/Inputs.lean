import Verif.Operator.Tables
import Verif.Restriction.Props
import Mathlib.Data.Finset.Card

/-!
# Setup and input restriction (helper lemmas)
-/

set_option linter.unusedSectionVars false

namespace Verif
namespace Operator

open Finset
open Restriction (RData Made Rstr)
open Basis (Bas EMode)

variable {α : Type} [CommRing α]

/-! ## Restrictions -/

theorem HasRstr.rep {op : Oper α} {S : Meaning α} {a : OField α} (h : HasRstr op S a) :
    ∃ r, a.rid = some r ∧ Restriction.Rep (op.rstrs r) .plain (S.dat a) ∧ (op.rstrs r).blockSize = 1 ∧
      (S.dat a).ne = op.ne ∧ (op.rstrs r).eSize = op.ne * ((S.dat a).nc * (S.dat a).es) := by
  obtain ⟨r, l, h1, h2, h3⟩ := h
  have hD : S.dat a = S.D r := by unfold Meaning.dat; rw [h1]; rfl
  rw [hD]
  obtain ⟨h4, h5, _⟩ := h2.rep
  refine ⟨r, h1, h4, h5, h3, ?_⟩
  rw [h4.esz, h4.nb, h5, ← h3]; simp; ring

/-- `b` holds `E u` in the layout of the plain E-vector. -/
def Gath (op : Oper α) (D : RData α) (b : Buf α) (u : Nat → α) : Prop :=
  ∀ e < op.ne, ∀ k < D.nc, ∀ n < D.es, b.val ((e * D.nc + k) * D.es + n) = D.row u e k n

theorem gather_ok {op : Oper α} {S : Meaning α} {a : OField α} {r : Nat} (h : HasRstr op S a) (hr : a.rid = some r)
    {u v : Buf α} (hu : (op.rstrs r).lSize ≤ u.len) (hv : v.len = eSizeOf op a) :
    ∃ v', Restriction.apply (op.rstrs r) .plain .noTranspose u v = .ok v' ∧ v'.len = v.len ∧ Gath op (S.dat a) v' u.val := by
  obtain ⟨r', h1, h2, h3, h4, h5⟩ := h.rep
  rw [hr] at h1; cases h1
  have hE : eSizeOf op a = (op.rstrs r).eSize := by unfold eSizeOf; rw [hr]
  obtain ⟨v', e1, e2, e3, _⟩ := h2.apply_nt (u := u) (v := v) hu (by omega)
  refine ⟨v', e1, e2, ?_⟩
  intro e he k hk n hn
  have := e3 e (by omega) k hk n hn
  rw [h3, Restriction.ePos_one] at this
  rw [← this]
  congr 1
  ring

theorem gather_short {op : Oper α} {r : Nat} {u v : Buf α} (hu : ¬ (op.rstrs r).lSize ≤ u.len) :
    Restriction.apply (op.rstrs r) .plain .noTranspose u v = .err .dimension := by
  simp only [Restriction.apply]
  rw [Res.check_false hu]
  rfl

/-! ## Setup -/

/-- Quadrature data: lengths, and the weights. -/
def QOK (op : Oper α) (S : Meaning α) (q : Nat → Buf α) : Prop :=
  ∀ i < op.nin, (q i).len = op.Q * (op.inp i).size ∧
    ((op.inp i).mode = .weight → ∀ x < op.Q, (q i).val x = S.w i x)

theorem setupQ_spec {op : Oper α} {S : Meaning α} (h : OpOK op S) (junk : Nat → Nat → α) :
    ∃ q, setupQ op junk = .ok q ∧ QOK op S q := by
  unfold setupQ
  obtain ⟨q, e, hq⟩ := loop_inv (n := op.nin)
    (body := fun i (q : Nat → Buf α) =>
      if (op.inp i).mode = .weight then
        match (op.inp i).basis with
        | some b => do
          let v ← Basis.apply b junk 1 .noTranspose .weight none ⟨op.Q, fun _ => 0⟩
          .ok (Function.update q i v)
        | none => .err .incompatible
      else .ok q)
    (s := fun i => ⟨op.Q * (op.inp i).size, fun _ => 0⟩)
    (fun j q => ∀ i < op.nin, (q i).len = op.Q * (op.inp i).size ∧
      (i < j → (op.inp i).mode = .weight → ∀ x < op.Q, (q i).val x = S.w i x))
    (fun i _ => ⟨rfl, fun hi => absurd hi (by omega)⟩)
    (by
      intro i hi q hq
      by_cases hw : (op.inp i).mode = .weight
      · obtain ⟨_, _, hsz, b, hb, hQ, hwt⟩ := h.in_weight hi hw
        obtain ⟨v', e1, e2, e3⟩ := hwt junk ⟨op.Q, fun _ => 0⟩ (by show b.Q ≤ op.Q; omega)
        refine ⟨Function.update q i v', by simp [hw, hb, e1], ?_⟩
        intro j hj
        by_cases hji : j = i
        · subst hji
          rw [Function.update_self]
          refine ⟨by rw [e2, hsz]; simp, fun _ _ x hx => e3 x (by omega)⟩
        · rw [Function.update_of_ne hji]
          exact ⟨(hq j hj).1, fun hlt => (hq j hj).2 (by omega)⟩
      · refine ⟨q, by simp [hw], ?_⟩
        intro j hj
        refine ⟨(hq j hj).1, fun hlt hwj => ?_⟩
        by_cases hji : j = i
        · subst hji; exact absurd hwj hw
        · exact (hq j hj).2 (by omega) hwj)
  exact ⟨q, e, fun i hi => ⟨(hq i hi).1, (hq i hi).2 hi⟩⟩

/-- What is known of a cached E-vector. -/
def CacheOK (op : Oper α) (S : Meaning α) (s : St α) (i : Nat) : Prop :=
  match (op.inp i).vec with
  | .active => True
  | .none => s.impl.states i = 0 ∧ s.impl.eInOk i = false
  | .vec v => s.impl.states i ≤ (s.vecs v).state ∧ (s.impl.states i = (s.vecs v).state →
      ((s.vecs v).state = 0 ∧ s.impl.eInOk i = false) ∨
      ((s.vecs v).valid = true ∧ (∃ r, (op.inp i).rid = some r ∧ (op.rstrs r).lSize ≤ (s.vecs v).buf.len) ∧
        s.impl.eInOk i = true ∧ Gath op (S.dat (op.inp i)) (s.impl.eIn i) (s.vecs v).buf.val))

/-- Invariant of an operator that has been set up, between calls. -/
structure Inv (op : Oper α) (S : Meaning α) (s : St α) : Prop where
  done : s.impl.done = true
  it : InSpec op S s.impl.it
  ot : OutSpec op S s.impl.ot
  idR : s.impl.idRstr = (op.isId && decide ((op.inp 0).mode = .none) && decide ((op.out 0).mode = .none))
  q : QOK op S s.impl.qIn
  eIn : ∀ i < op.nin, (s.impl.eIn i).len = eSizeOf op (op.inp i)
  eOut : ∀ o < op.nout, (s.impl.eOut o).len = eSizeOf op (op.out o)
  vz : ∀ v, (s.vecs v).state = 0 → (s.vecs v).valid = false
  cache : ∀ i < op.nin, (op.inp i).mode ≠ .weight → first op i = i → CacheOK op S s i

/-- No E-vector is locked. -/
def Unlocked (s : St α) : Prop := (∀ k, s.impl.rd k = 0) ∧ ∀ k, s.impl.wr k = false

/-- States of a history: before or after the setup. -/
def Good (op : Oper α) (S : Meaning α) (s : St α) : Prop :=
  (s.impl.done = false ∨ Inv op S s) ∧ ∀ v, (s.vecs v).state = 0 → (s.vecs v).valid = false

theorem setup_ok {op : Oper α} {S : Meaning α} (h : OpOK op S) (junk : Nat → Nat → α) {s : St α} (hg : Good op S s) :
    ∃ s', setup op junk s = .ok s' () ∧ Inv op S s' ∧ s'.vecs = s.vecs ∧
      ((s.impl.done = true → Unlocked s) → Unlocked s') := by
  unfold setup
  simp only [M.bind_apply, getS, Out.bind_ok]
  by_cases hd : s.impl.done = true
  · refine ⟨s, by rw [if_pos hd]; rfl, ?_, rfl, fun hu => hu hd⟩
    rcases hg.1 with h1 | h1
    · rw [h1] at hd; cases hd
    · exact h1
  · rw [if_neg hd]
    obtain ⟨q, e1, h1⟩ := setupQ_spec h junk
    obtain ⟨it, e2, h2⟩ := setupIn_spec h
    obtain ⟨ot, e3, h3⟩ := setupOut_spec h
    simp only [M.bind_apply, e1, e2, e3, M.lift_ok, Out.bind_ok, modI]
    refine ⟨_, rfl, ?_, rfl, fun _ => ⟨fun _ => rfl, fun _ => rfl⟩⟩
    refine ⟨rfl, h2, h3, rfl, h1, fun i _ => rfl, fun o _ => rfl, hg.2, ?_⟩
    intro i hi hw hf
    unfold CacheOK
    split
    · trivial
    · exact ⟨rfl, rfl⟩
    · exact ⟨Nat.zero_le _, fun hz => Or.inl ⟨hz.symm, rfl⟩⟩

/-! ## Input restriction -/

/-- Readiness of one input. -/
def ReadyI (op : Oper α) (inv : VPtr) (s : St α) (i : Nat) : Prop :=
  (op.inp i).mode ≠ .weight → ∃ r v, (op.inp i).rid = some r ∧ (op.inp i).vec.ptr inv = .vec v ∧
    (s.vecs v).valid = true ∧ (op.rstrs r).lSize ≤ (s.vecs v).buf.len

theorem restrictIn_eq (op : Oper α) (i : Nat) (p : VPtr) (s : St α) {r k : Nat} (hr : (op.inp i).rid = some r)
    (hk : s.impl.it.full i = some k) : restrictIn op i p s = (readVec p s).bind (fun s' u =>
      (M.check (s.impl.rd k = 0) .access s').bind (fun s' _ =>
        (M.lift (Restriction.apply (op.rstrs r) .plain .noTranspose u (s.impl.eIn k)) s').bind (fun s' v =>
          modI (fun c => { c with eIn := Function.update c.eIn k v, eInOk := Function.update c.eInOk k true }) s'))) := by
  unfold restrictIn
  simp only [M.bind_apply, getS, Out.bind_ok, hr, hk, ptr, M.pure_apply]

theorem lockRead_eq (i : Nat) (s : St α) {k : Nat} (hk : s.impl.it.full i = some k) :
    lockRead i s = if s.impl.eInOk k = true then
      .ok { s with impl := { s.impl with rd := Function.update s.impl.rd k (s.impl.rd k + 1) } } ()
      else .err s .backend := by
  unfold lockRead
  simp only [M.bind_apply, getS, Out.bind_ok, hk, ptr, M.pure_apply, M.check_apply]
  by_cases h : s.impl.eInOk k = true
  · simp only [h, if_true, Out.bind_ok, modI]
  · simp only [h]; simp

/-- Number of readers of the E-vector `k` after the inputs `< j` have been locked. -/
noncomputable def readers (op : Oper α) (j k : Nat) : Nat :=
  open Classical in ((range j).filter (fun i => (op.inp i).mode ≠ .weight ∧ first op i = k)).card

theorem readers_succ (op : Oper α) (j k : Nat) : readers op (j + 1) k =
    readers op j k + (open Classical in if (op.inp j).mode ≠ .weight ∧ first op j = k then 1 else 0) := by
  unfold readers
  rw [Finset.range_add_one, Finset.filter_insert]
  split
  · rw [Finset.card_insert_of_notMem (by simp)]
  · rfl

theorem readers_zero (op : Oper α) {j k : Nat} (h : j ≤ k) : readers op j k = 0 := by
  unfold readers
  rw [Finset.card_eq_zero, Finset.filter_eq_empty_iff]
  intro i hi
  have := first_le op i
  rw [mem_range] at hi
  rintro ⟨_, h2⟩
  omega

/-- State during the input restriction, after the inputs `< j`. -/
structure InLoop (op : Oper α) (S : Meaning α) (inv : VPtr) (s0 s : St α) (j : Nat) : Prop where
  vecs : s.vecs = s0.vecs
  eptr : s.eptr = s0.eptr
  done : s.impl.done = s0.impl.done
  idR : s.impl.idRstr = s0.impl.idRstr
  it : s.impl.it = s0.impl.it
  ot : s.impl.ot = s0.impl.ot
  q : s.impl.qIn = s0.impl.qIn
  eOut : s.impl.eOut = s0.impl.eOut
  wr : s.impl.wr = s0.impl.wr
  len : ∀ i < op.nin, (s.impl.eIn i).len = eSizeOf op (op.inp i)
  ready : ∀ i < j, ReadyI op inv s0 i
  gath : ∀ i < j, (op.inp i).mode ≠ .weight → ∀ v, (op.inp i).vec.ptr inv = .vec v →
    s.impl.eInOk (first op i) = true ∧ Gath op (S.dat (op.inp i)) (s.impl.eIn (first op i)) (s0.vecs v).buf.val
  rest : ∀ i, j ≤ i → s.impl.states i = s0.impl.states i ∧ s.impl.eIn i = s0.impl.eIn i ∧
    s.impl.eInOk i = s0.impl.eInOk i
  st : ∀ i < j, (op.inp i).mode ≠ .weight → s.impl.states i = s0.stateOf ((op.inp i).vec.ptr inv)
  rd : ∀ k, s.impl.rd k = s0.impl.rd k + readers op j k

/-- The invariant holds during the input restriction, so also if it fails. -/
theorem InLoop.inv {op : Oper α} {S : Meaning α} {inv : VPtr} {s0 s : St α} {j : Nat} (hs : InLoop op S inv s0 s j)
    (h0 : Inv op S s0) : Inv op S s := by
  refine ⟨hs.done.trans h0.done, hs.it ▸ h0.it, hs.ot ▸ h0.ot, hs.idR.trans h0.idR, hs.q ▸ h0.q, hs.len,
    hs.eOut ▸ h0.eOut, hs.vecs ▸ h0.vz, ?_⟩
  intro i hi hw hf
  by_cases hij : i < j
  · unfold CacheOK
    have hst := hs.st i hij hw
    obtain ⟨r, v, h1, h2, h3, h4⟩ := hs.ready i hij hw
    obtain ⟨h5, h6⟩ := hs.gath i hij hw v h2
    rw [hf] at h5 h6
    match hvec : (op.inp i).vec with
    | .active => trivial
    | .none => rw [hvec] at h2; cases h2
    | .vec v' =>
      rw [hvec] at h2 hst; cases h2
      rw [hs.vecs]
      have hst' : s.impl.states i = (s0.vecs v).state := hst
      exact ⟨hst'.le, fun _ => Or.inr ⟨h3, ⟨r, h1, h4⟩, h5, h6⟩⟩
  · obtain ⟨h1, h2, h3⟩ := hs.rest i (by omega)
    have := h0.cache i hi hw hf
    unfold CacheOK at this ⊢
    rw [h1, h2, h3, hs.vecs]
    exact this

theorem setupInputs_wp {op : Oper α} {S : Meaning α} (h : OpOK op S) {s0 : St α} (hi0 : Inv op S s0) {inv : VPtr}
    {R : Prop} (hR : R → InReady op inv s0) (hU : R → Unlocked s0) :
    M.wp R (setupInputs op inv false) s0 (fun s _ => InLoop op S inv s0 s op.nin) (fun s _ => ¬ R ∧ Inv op S s) := by
  unfold setupInputs
  refine M.wp_loop (fun j s => InLoop op S inv s0 s j) ?_ ?_
  · exact ⟨rfl, rfl, rfl, rfl, rfl, rfl, rfl, rfl, rfl, hi0.eIn, fun i hi => absurd hi (by omega),
      fun i hi => absurd hi (by omega), fun i _ => ⟨rfl, rfl, rfl⟩, fun i hi => absurd hi (by omega),
      fun k => by rw [readers_zero op (Nat.zero_le _)]; rfl⟩
  intro i hi s hs
  unfold setupInput
  rw [if_neg (by simp)]
  by_cases hw : (op.inp i).mode = .weight
  · rw [if_pos hw, M.wp_pure]
    have hsucc : ∀ j, j < i + 1 → (op.inp j).mode ≠ .weight → j < i := by
      intro j hj hm
      have : j ≠ i := by rintro rfl; exact hm hw
      omega
    exact ⟨hs.vecs, hs.eptr, hs.done, hs.idR, hs.it, hs.ot, hs.q, hs.eOut, hs.wr, hs.len,
      fun j hj hm => hs.ready j (hsucc j hj hm) hm, fun j hj hm => hs.gath j (hsucc j hj hm) hm,
      fun j hj => hs.rest j (by omega), fun j hj hm => hs.st j (hsucc j hj hm) hm,
      fun k => by rw [hs.rd, readers_succ, if_neg (by rintro ⟨h1, _⟩; exact h1 hw)]; rfl⟩
  rw [if_neg hw]
  have hrs := h.in_rstr hi hw
  obtain ⟨r, hr, _⟩ := hrs.rep
  have hfull : s.impl.it.full i = some (first op i) := by rw [hs.it]; exact hi0.it.full i hi hw
  have hskip : s.impl.it.skip i = true ↔ first op i < i := by rw [hs.it]; exact hi0.it.skip i hi
  have hst : ∀ p, s.stateOf p = s0.stateOf p := by
    intro p; unfold St.stateOf; rw [hs.vecs]
  set p := (op.inp i).vec.ptr inv with hp
  -- after the restriction step
  have tail : ∀ s1 : St α, s1.vecs = s0.vecs → s1.eptr = s0.eptr → s1.impl.done = s0.impl.done →
      s1.impl.idRstr = s0.impl.idRstr → s1.impl.it = s0.impl.it → s1.impl.ot = s0.impl.ot → s1.impl.qIn = s0.impl.qIn →
      s1.impl.eOut = s0.impl.eOut → s1.impl.wr = s0.impl.wr → s1.impl.rd = s.impl.rd → s1.impl.states = s.impl.states →
      (∀ k, k ≠ i → s1.impl.eIn k = s.impl.eIn k ∧ s1.impl.eInOk k = s.impl.eInOk k) →
      (s1.impl.eIn i).len = eSizeOf op (op.inp i) → ReadyI op inv s0 i →
      (∀ v, p = .vec v → s1.impl.eInOk (first op i) = true ∧
        Gath op (S.dat (op.inp i)) (s1.impl.eIn (first op i)) (s0.vecs v).buf.val) →
      M.wp R (do
        modI (fun c => { c with states := Function.update c.states i (s.stateOf p) })
        lockRead i) s1 (fun s _ => InLoop op S inv s0 s (i + 1)) (fun s _ => ¬ R ∧ Inv op S s) := by
    intro s1 a1 a2 a3 a4 a5 a6 a7 a8 a9 a10 a11 a12 a13 a14 a15
    obtain ⟨_, v, _, hv, _⟩ := a14 hw
    obtain ⟨hok, _⟩ := a15 v hv
    have hfull1 : s1.impl.it.full i = some (first op i) := by rw [a5, ← hs.it]; exact hfull
    refine M.wp_of_eq_ok (s' := { s1 with impl := { s1.impl with
      states := Function.update s1.impl.states i (s.stateOf p),
      rd := Function.update s1.impl.rd (first op i) (s1.impl.rd (first op i) + 1) } }) (a := ()) ?_ ?_
    · simp only [M.bind_apply, modI, Out.bind_ok]
      refine (lockRead_eq i _ (k := first op i) ?_).trans (if_pos ?_)
      · exact hfull1
      · exact hok
    · refine ⟨a1, a2, a3, a4, a5, a6, a7, a8, a9, ?_, ?_, ?_, ?_, ?_, ?_⟩
      · intro j hj
        by_cases hji : j = i
        · subst hji; exact a13
        · show (s1.impl.eIn j).len = _
          rw [(a12 j hji).1]; exact hs.len j hj
      · intro j hj
        by_cases hji : j = i
        · subst hji; exact a14
        · exact hs.ready j (by omega)
      · intro j hj hm v1 hv1
        by_cases hji : j = i
        · subst hji; exact a15 v1 hv1
        · have hfj : first op j ≠ i := by have := first_le op j; omega
          obtain ⟨b1, b2⟩ := hs.gath j (by omega) hm v1 hv1
          show s1.impl.eInOk (first op j) = true ∧ Gath op _ (s1.impl.eIn (first op j)) _
          rw [(a12 _ hfj).1, (a12 _ hfj).2]
          exact ⟨b1, b2⟩
      · intro j hj
        have hji : j ≠ i := by omega
        show Function.update s1.impl.states i _ j = _ ∧ s1.impl.eIn j = _ ∧ s1.impl.eInOk j = _
        rw [Function.update_of_ne hji, (a12 j hji).1, (a12 j hji).2, a11]
        exact hs.rest j (by omega)
      · intro j hj hm
        show Function.update s1.impl.states i _ j = _
        by_cases hji : j = i
        · subst hji; rw [Function.update_self, hst]
        · rw [Function.update_of_ne hji, a11]; exact hs.st j (by omega) hm
      · intro k
        show Function.update s1.impl.rd (first op i) _ k = _
        rw [readers_succ]
        by_cases hk : k = first op i
        · subst hk
          rw [Function.update_self, a10, hs.rd, if_pos ⟨hw, rfl⟩, Nat.add_assoc]
        · rw [Function.update_of_ne hk, a10, hs.rd, if_neg (by rintro ⟨_, h2⟩; exact hk h2.symm)]; rfl
  rw [M.wp_bind]
  refine M.wp_of_eq_ok (s' := s) (a := s) rfl ?_
  rw [M.wp_bind]
  unfold restrictIf
  rw [M.wp_bind]
  refine M.wp_of_eq_ok (s' := s) (a := s) rfl ?_
  by_cases hsk : s.impl.it.skip i = true
  · -- shared with an earlier input
    have hlt := hskip.1 hsk
    rw [if_neg (by simp [hsk]), M.wp_pure]
    have hsame := first_same op i
    have hm1 : (op.inp (first op i)).mode ≠ .weight := by
      have := h.shareIn (first op i) i hlt hi hsame (fun k hk => first_min op hk)
      exact weight_not_basis this
    have hpe : (op.inp (first op i)).vec.ptr inv = p := by rw [(same_iff.1 hsame).1]
    have hrd : ReadyI op inv s0 i := by
      intro _
      obtain ⟨r', v, b1, b2, b3⟩ := hs.ready (first op i) hlt hm1
      exact ⟨r', v, by rw [← (same_iff.1 hsame).2]; exact b1, by rw [← hp, ← hpe]; exact b2, b3⟩
    refine tail s hs.vecs hs.eptr hs.done hs.idR hs.it hs.ot hs.q hs.eOut hs.wr rfl rfl (fun _ _ => ⟨rfl, rfl⟩)
      (hs.len i hi) hrd ?_
    intro v hv
    have := hs.gath (first op i) hlt hm1 v (by rw [hpe]; exact hv)
    rw [first_first, dat_same hsame] at this
    exact this
  have hsk' : s.impl.it.skip i = false := by simpa using hsk
  have hfi : first op i = i := by
    have := first_le op i
    by_contra hne
    exact hsk (hskip.2 (by omega))
  rw [hfi] at hfull tail
  have hcache := hi0.cache i hi hw hfi
  obtain ⟨hrest1, hrest2, hrest3⟩ := hs.rest i le_rfl
  by_cases hc : s.stateOf p ≠ s.impl.states i ∨ p = inv
  · rw [if_pos ⟨hc, hsk'⟩]
    by_cases hrd : ReadyI op inv s0 i
    · obtain ⟨r', v, b1, b2, b3, b4⟩ := hrd hw
      rw [hr] at b1; cases b1
      by_cases hrd0 : s.impl.rd i = 0
      swap
      · refine M.wp_of_eq_err (s' := s) (a := .access) ?_ ⟨fun hr' => hrd0 ?_, hs.inv hi0⟩
        · rw [restrictIn_eq op i p s hr hfull, show p = .vec v from b2]
          simp only [readVec, hs.vecs, b3, if_true, Out.bind_ok, M.check_false hrd0, Out.bind_err]
        · rw [hs.rd, readers_zero op le_rfl, (hU hr').1]
      obtain ⟨v', e1, e2, e3⟩ := gather_ok hrs hr (u := (s0.vecs v).buf) (v := s.impl.eIn i) b4 (hs.len i hi)
      have hrun : restrictIn op i p s = .ok { s with impl := { s.impl with
          eIn := Function.update s.impl.eIn i v', eInOk := Function.update s.impl.eInOk i true } } () := by
        rw [restrictIn_eq op i p s hr hfull, show p = .vec v from b2]
        simp only [readVec, hs.vecs, b3, if_true, Out.bind_ok, M.check_true hrd0, e1, M.lift_ok, modI]
      refine M.wp_of_eq_ok hrun ?_
      refine tail _ hs.vecs hs.eptr hs.done hs.idR hs.it hs.ot hs.q hs.eOut hs.wr rfl rfl ?_ ?_ hrd ?_
      · intro k hk
        exact ⟨Function.update_of_ne hk _ _, Function.update_of_ne hk _ _⟩
      · show (Function.update s.impl.eIn i v' i).len = _
        rw [Function.update_self, e2]; exact hs.len i hi
      · intro v1 hv1
        rw [show p = .vec v from b2] at hv1; cases hv1
        show Function.update s.impl.eInOk i true i = true ∧ Gath op _ (Function.update s.impl.eIn i v' i) _
        rw [Function.update_self, Function.update_self]
        exact ⟨rfl, e3⟩
    · have hnR : ¬ R := fun hr' => hrd (hR hr' i hi)
      have herr : (∃ e, restrictIn op i p s = .err s e) ∨ restrictIn op i p s = .ub := by
        rw [restrictIn_eq op i p s hr hfull]
        match hpp : p with
        | .null => exact Or.inr rfl
        | .none => exact Or.inl ⟨_, rfl⟩
        | .vec v =>
          by_cases hval : (s.vecs v).valid = true
          · have hshort : ¬ (op.rstrs r).lSize ≤ (s.vecs v).buf.len := by
              intro hl
              rw [hs.vecs] at hval hl
              exact hrd (fun _ => ⟨r, v, hr, by rw [← hp], hval, hl⟩)
            by_cases hz : s.impl.rd i = 0
            · refine Or.inl ⟨.dimension, ?_⟩
              simp only [readVec, hval, if_true, Out.bind_ok, M.check_true hz, gather_short hshort, M.lift_err, Out.bind_err]
            · refine Or.inl ⟨.access, ?_⟩
              simp only [readVec, hval, if_true, Out.bind_ok, M.check_false hz, Out.bind_err]
          · refine Or.inl ⟨.backend, ?_⟩
            simp only [readVec, hval]
            simp
      rcases herr with ⟨e, he⟩ | he
      · exact M.wp_of_eq_err he ⟨hnR, hs.inv hi0⟩
      · exact M.wp_of_eq_ub he hnR
  · rw [if_neg (by rintro ⟨h1, _⟩; exact hc h1), M.wp_pure]
    have hc1 : s.stateOf p = s.impl.states i := by by_contra hh; exact hc (Or.inl hh)
    have hc2 : p ≠ inv := fun hh => hc (Or.inr hh)
    have fail : s0.impl.eInOk i = false → ¬ ReadyI op inv s0 i → M.wp R (do
        modI (fun c => { c with states := Function.update c.states i (s.stateOf p) })
        lockRead i) s (fun s _ => InLoop op S inv s0 s (i + 1)) (fun s _ => ¬ R ∧ Inv op S s) := by
      intro hf hnr
      refine M.wp_of_eq_err (s' := { s with impl := { s.impl with
        states := Function.update s.impl.states i (s.stateOf p) } }) (a := .backend) ?_ ⟨fun hr' => hnr (hR hr' i hi), ?_⟩
      swap
      · rw [hc1, Function.update_eq_self]
        exact hs.inv hi0
      simp only [M.bind_apply, modI, Out.bind_ok]
      refine (lockRead_eq i _ (k := i) ?_).trans (if_neg ?_)
      · exact hfull
      · show ¬ s.impl.eInOk i = true
        rw [hrest3, hf]; simp
    unfold CacheOK at hcache
    match hvec : (op.inp i).vec with
    | .active => rw [hvec] at hp; exact absurd hp hc2
    | .none =>
      rw [hvec] at hcache hp
      refine fail hcache.2 (fun hh => ?_)
      obtain ⟨_, v, _, b2, _⟩ := hh hw
      rw [hvec] at b2; cases b2
    | .vec v =>
      rw [hvec] at hcache hp
      have hpv : p = .vec v := hp
      have hstv : s0.impl.states i = (s0.vecs v).state := by
        rw [← hrest1, ← hc1, hst, hpv]; rfl
      rcases hcache.2 hstv with ⟨hz, hf⟩ | ⟨g1, ⟨r', g2, g3⟩, g4, g5⟩
      · refine fail hf (fun hh => ?_)
        obtain ⟨_, v', _, b2, b3, _⟩ := hh hw
        rw [hvec] at b2; cases b2
        rw [hi0.vz v hz] at b3; cases b3
      · refine tail s hs.vecs hs.eptr hs.done hs.idR hs.it hs.ot hs.q hs.eOut hs.wr rfl rfl (fun _ _ => ⟨rfl, rfl⟩)
          (hs.len i hi) (fun _ => ⟨r', v, g2, by rw [hvec]; rfl, g1, g3⟩) ?_
        intro v' hv'
        rw [hpv] at hv'; cases hv'
        rw [hrest2, hrest3]
        exact ⟨g4, g5⟩

end Operator
end Verif
