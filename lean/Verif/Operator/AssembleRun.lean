import Verif.Operator.AssembleLemmas

/-!
# Histories with assemblies (helper lemmas)
-/

set_option linter.unusedSectionVars false

namespace Verif
namespace Operator

open Finset
open Restriction (RData Made Rstr)
open Basis (Bas EMode)

variable {α : Type} [CommRing α]

/-- Length of the assembled vector. -/
def Oper.alen (op : Oper α) : Nat := op.ne * op.Q * op.cIn * op.cOut

/-- Operators that only restrict and scatter. -/
def IdOnly (op : Oper α) : Prop := op.isId = true ∧ (op.inp 0).mode = .none ∧ (op.out 0).mode = .none

/-- Data kept for assemblies. -/
structure AData (op : Oper α) (s : ASt α) : Prop where
  sin : s.szIn = 0 ∨ (s.szIn = op.cIn ∧ 0 < op.cIn)
  sout : s.szOut = 0 ∨ (s.szOut = op.cOut ∧ 0 < op.cOut)
  built : ∀ v, s.built = some v → v.len = op.alen ∧ s.szIn = op.cIn ∧ s.szOut = op.cOut ∧ 0 < op.cIn ∧ 0 < op.cOut

theorem setup_done {op : Oper α} {junk : Nat → Nat → α} {s : St α} (h : s.impl.done = true) :
    setup op junk s = .ok s () := by
  unfold setup
  simp only [M.bind_apply, getS, Out.bind_ok, if_pos h, M.pure_apply]

/-- An assembly is going to be right: no two active inputs share their data, and it is the first one, or there is only one
component of active inputs, or the data of the active inputs are zero. -/
def Sound (op : Oper α) (s : ASt α) : Prop :=
  Separate op ∧ (s.szIn = 0 ∨ op.cIn = 1 ∨ (s.st.impl.done = true ∧ Clean op s.st.impl.qIn))

/-- What an assembly does. -/
structure Assembled (op : Oper α) (S : Meaning α) (s s' : ASt α) (v : Buf α) : Prop where
  inv : Inv op S s'.st
  vecs : s'.st.vecs = s.st.vecs
  unl : (s.st.impl.done = true → Unlocked s.st) → Unlocked s'.st
  sin : s'.szIn = op.cIn
  sout : s'.szOut = op.cOut
  pin : 0 < op.cIn
  pout : 0 < op.cOut
  notId : ¬ IdOnly op
  built : s'.built = s.built
  reuse : s'.reuse = s.reuse
  needs : s'.needs = s.needs
  ready : PassiveReady op s.st
  len : v.len = op.alen
  cols : Sound op s → Columns op S s.st.L v ∧ Clean op s'.st.impl.qIn

theorem PassLoop.passPre {op : Oper α} {S : Meaning α} {s0 s : St α} (hs : PassLoop op S s0 s op.nin)
    (h0 : Inv op S s0) : PassPre op S s0.L s := by
  refine ⟨by rw [hs.it]; exact h0.it, ?_, ?_⟩
  · intro i hi _
    have hf : first op i < op.nin := by have := first_le op i; omega
    rw [hs.len _ hf, eSizeOf_same (first_same op i)]
  · intro i hi hl
    obtain ⟨_, v, _, hv, _⟩ := hs.ready i hi hl
    rw [hv]
    exact (hs.gath i hi hl v hv).2

theorem PassLoop.passiveReady {op : Oper α} {S : Meaning α} {s0 s : St α} (hs : PassLoop op S s0 s op.nin) :
    PassiveReady op s0 := by
  intro i hi hw ha
  obtain ⟨r, v, h1, h2, h3⟩ := hs.ready i hi ⟨hw, ha⟩
  refine ⟨r, v, h1, ?_, h3⟩
  match hv : (op.inp i).vec with
  | .active => exact absurd hv ha
  | .none => rw [hv] at h2; cases h2
  | .vec u => rw [hv] at h2; cases h2; rfl

theorem countIn_wp {op : Oper α} {S : Meaning α} (h : OpOK op S) {s : ASt α} (hq : Inv op S s.st)
    (hs : s.szIn = 0 ∨ (s.szIn = op.cIn ∧ 0 < op.cIn)) {R : Prop} (hR : R → 0 < op.cIn) :
    M.wp R (countIn op) s (fun s' _ => 0 < op.cIn ∧ ∃ q, s' = { s with st := s.st.put q s.st.impl.eOut, szIn := op.cIn } ∧
        QOK op S q ∧ (s.szIn = 0 ∨ Clean op s.st.impl.qIn → Clean op q))
      (fun s' _ => ¬ R ∧ ∃ q, s' = { s with st := s.st.put q s.st.impl.eOut } ∧ QOK op S q) := by
  have hcs : countSizes op.inp op.nin = op.cIn := countSizes_eq _ _
  by_cases h0 : s.szIn = 0
  · obtain ⟨q, e1, h1, h2⟩ := zeroActive_ok h hq.q
    by_cases hp : 0 < op.cIn
    · refine M.wp_of_eq_ok (s' := { s with st := s.st.put q s.st.impl.eOut, szIn := op.cIn }) (a := ()) ?_
        ⟨hp, q, rfl, h1, fun _ => Or.inl h2⟩
      unfold countIn
      simp only [M.bind_apply, getA, Out.bind_ok, if_pos h0, e1, hcs, M.check_true hp, modA]
    · refine M.wp_of_eq_err (s' := { s with st := s.st.put q s.st.impl.eOut }) (a := .backend) ?_
        ⟨fun r => hp (hR r), q, rfl, h1⟩
      unfold countIn
      simp only [M.bind_apply, getA, Out.bind_ok, if_pos h0, e1, hcs, M.check_false hp, Out.bind_err]
  · rcases hs with hs | ⟨hs, hp⟩
    · exact absurd hs h0
    refine M.wp_of_eq_ok (s' := s) (a := ()) ?_ ⟨hp, s.st.impl.qIn, ?_, hq.q, ?_⟩
    · unfold countIn
      simp only [M.bind_apply, getA, Out.bind_ok, if_neg h0, M.pure_apply]
    · rw [← hs]; rfl
    · rintro (hh | hh)
      · exact absurd hh h0
      · exact hh

theorem countOut_wp {op : Oper α} {s : ASt α} (hs : s.szOut = 0 ∨ (s.szOut = op.cOut ∧ 0 < op.cOut)) {R : Prop}
    (hR : R → 0 < op.cOut) :
    M.wp R (countOut op) s (fun s' _ => 0 < op.cOut ∧ s' = { s with szOut := op.cOut }) (fun s' _ => ¬ R ∧ s' = s) := by
  have hcs : countSizes op.out op.nout = op.cOut := countSizes_eq _ _
  by_cases h0 : s.szOut = 0
  · by_cases hp : 0 < op.cOut
    · refine M.wp_of_eq_ok (s' := { s with szOut := op.cOut }) (a := ()) ?_ ⟨hp, rfl⟩
      unfold countOut
      simp only [M.bind_apply, getA, Out.bind_ok, if_pos h0, hcs, M.check_true hp, modA]
    · refine M.wp_of_eq_err (s' := s) (a := .backend) ?_ ⟨fun r => hp (hR r), rfl⟩
      unfold countOut
      simp only [M.bind_apply, getA, Out.bind_ok, if_pos h0, hcs, M.check_false hp, Out.bind_err]
  · rcases hs with hs | ⟨hs, hp⟩
    · exact absurd hs h0
    refine M.wp_of_eq_ok (s' := s) (a := ()) ?_ ⟨hp, by rw [← hs]⟩
    unfold countOut
    simp only [M.bind_apply, getA, Out.bind_ok, if_neg h0, M.pure_apply]

theorem assembleCore_wp {op : Oper α} {S : Meaning α} (h : OpOK op S) (junk : Nat → Nat → α) {s : ASt α}
    (hg : Good op S s.st) (hd : AData op s) {len : Option Nat} (hlen : ∀ n, len = some n → n = op.alen) {R : Prop}
    (hR : R → PassiveReady op s.st ∧ (s.st.impl.done = true → Unlocked s.st) ∧ 0 < op.cIn ∧ 0 < op.cOut ∧ ¬ IdOnly op) :
    M.wp R (assembleCore op junk len) s (fun s' v => Assembled op S s s' v)
      (fun s' _ => ¬ R ∧ Good op S s'.st ∧ AData op s' ∧ s'.built = s.built) := by
  unfold assembleCore
  obtain ⟨t1, e1, I1, v1, u1⟩ := setup_ok h junk hg
  have dok : ∀ s' : ASt α, s'.szOut = s.szOut → s'.built = s.built → s'.szIn = s.szIn → AData op s' := by
    intro s' a1 a2 a3
    exact ⟨by rw [a3]; exact hd.sin, by rw [a1]; exact hd.sout, by rw [a1, a2, a3]; exact hd.built⟩
  have igood : ∀ {t : St α}, Inv op S t → Good op S t := fun hi => ⟨Or.inr hi, hi.vz⟩
  have hL : t1.L = s.st.L := by unfold St.L; rw [v1]
  rw [M.wp_bind]
  refine M.wp_of_eq_ok (liftS_ok e1) ?_
  rw [M.wp_bind]
  refine M.wp_of_eq_ok (s' := { s with st := t1 }) (a := { s with st := t1 }) rfl ?_
  rw [M.wp_bind]
  have hid : t1.impl.idRstr = false ↔ ¬ IdOnly op := by
    rw [I1.idR]
    unfold IdOnly
    cases op.isId <;> simp
  refine M.wp_check (fun hc => ?_) (fun hc => ⟨fun r => hc (hid.2 (hR r).2.2.2.2), igood I1, dok _ rfl rfl rfl, rfl⟩)
  have hnid : ¬ IdOnly op := hid.1 hc
  rw [M.wp_bind]
  have hPR : R → PassiveReady op t1 := by
    intro r i hi hw ha
    rw [v1]; exact (hR r).1 i hi hw ha
  refine liftS_wp (s := { s with st := t1 }) (M.wp_mono (setupPassive_wp h I1 (R := R) hPR (fun r => u1 (hR r).2.1)) ?_ ?_)
  swap
  · rintro t2 c ⟨b1, b2⟩
    exact ⟨b1, igood b2, dok _ rfl rfl rfl, rfl⟩
  intro t2 _ H2
  have I2 := H2.inv I1
  rw [M.wp_bind]
  refine M.wp_mono (countIn_wp h (s := { s with st := t2 }) I2 (R := R) ?_ (fun r => (hR r).2.2.1)) ?_ ?_
  · exact hd.sin
  swap
  · rintro s3 c ⟨b1, q, b2, b3⟩
    subst b2
    have I3 : Inv op S (t2.put q t2.impl.eOut) := I2.congr rfl ⟨_, _, _, q, rfl, I2.eOut, b3⟩
    exact ⟨b1, igood I3, dok _ rfl rfl rfl, rfl⟩
  rintro s3 _ ⟨hcin, q3, hs3, hq3, hcl3⟩
  have I3 : Inv op S (t2.put q3 t2.impl.eOut) := I2.congr rfl ⟨_, _, _, q3, rfl, I2.eOut, hq3⟩
  rw [M.wp_bind]
  refine M.wp_mono (countOut_wp (s := s3) (R := R) (by rw [hs3]; exact hd.sout) (fun r => (hR r).2.2.2.1)) ?_ ?_
  swap
  · rintro s4 c ⟨b1, b2⟩
    rw [b2, hs3]
    refine ⟨b1, igood I3, ⟨Or.inr ⟨rfl, hcin⟩, hd.sout, fun v hv => ?_⟩, rfl⟩
    obtain ⟨a1, _, a3, a4, a5⟩ := hd.built v hv
    exact ⟨a1, rfl, a3, a4, a5⟩
  rintro s4 _ ⟨hcout, hs4⟩
  rw [hs3] at hs4
  rw [M.wp_bind]
  refine M.wp_of_eq_ok (s' := ASt.put s4 t2.impl.eOut (q3, ⟨op.alen, fun _ => 0⟩, 0)) (a := ()) ?_ ?_
  · rw [hs4]
    show Out.ok _ _ = Out.ok _ _
    congr 1
    unfold ASt.put
    simp only [ASt.mk.injEq, and_true, true_and, Buf.mk.injEq]
    refine ⟨rfl, ?_⟩
    cases len with
    | none => rfl
    | some n => exact hlen n rfl
  have hpre : PassPre op S t1.L s4.st := by
    rw [hs4]
    obtain ⟨p1, p2, p3⟩ := H2.passPre I1
    exact ⟨p1, p2, p3⟩
  obtain ⟨x, e5, hx1, hx2, hx3, hx4⟩ := assembleElems_ok h hcout (z := Separate op ∧ (s.szIn = 0 ∨ Clean op t2.impl.qIn))
    (fun hh => hh.1) junk s4 t2.impl.eOut hpre hq3 (fun hh => hcl3 hh.2)
    (arr := ⟨op.alen, fun _ => 0⟩) (by show _ ≤ op.alen; unfold Oper.alen Oper.stride; exact le_of_eq (by ring))
  rw [M.wp_bind]
  refine M.wp_of_eq_ok e5 ?_
  rw [M.wp_bind]
  have I5 : Inv op S (s4.put t2.impl.eOut x).st := by
    have : (s4.put t2.impl.eOut x).st = t2.put x.1 t2.impl.eOut := by rw [hs4]; rfl
    rw [this]
    exact I2.congr rfl ⟨_, _, _, x.1, rfl, I2.eOut, hx1⟩
  obtain ⟨rd, e6, hrd⟩ := restorePassive_ok I5.it
  refine M.wp_of_eq_ok (liftS_ok e6) ?_
  rw [M.wp_bind]
  refine M.wp_of_eq_ok (a := _) (s' := _) rfl ?_
  rw [M.wp_pure]
  have hrd1 : rd = t1.impl.rd := by
    funext k
    rw [hrd]
    have : (s4.put t2.impl.eOut x).st.impl.rd k = t2.impl.rd k := by rw [hs4]; rfl
    rw [this, H2.rd, Nat.add_sub_cancel]
  have hwr1 : (s4.put t2.impl.eOut x).st.impl.wr = t1.impl.wr := by rw [hs4]; exact H2.wr
  refine ⟨I5.congr rfl ⟨rd, _, _, _, rfl, I5.eOut, I5.q⟩, ?_, ?_, ?_, ?_, hcin, hcout, hnid, ?_, ?_, ?_, ?_, hx3, ?_⟩
  · show (s4.put t2.impl.eOut x).st.vecs = _
    rw [hs4]
    exact H2.vecs.trans v1
  · intro hu
    have := u1 hu
    refine ⟨fun k => ?_, fun k => ?_⟩
    · show rd k = 0
      rw [hrd1]; exact this.1 k
    · show (s4.put t2.impl.eOut x).st.impl.wr k = false
      rw [hwr1]; exact this.2 k
  · show s4.szIn = _; rw [hs4]
  · show s4.szOut = _; rw [hs4]
  · show s4.built = _; rw [hs4]
  · show s4.reuse = _; rw [hs4]
  · show s4.needs = _; rw [hs4]
  · have := H2.passiveReady
    intro i hi hw ha
    obtain ⟨r, v, a1, a2, a3⟩ := this i hi hw ha
    rw [v1] at a3
    exact ⟨r, v, a1, a2, a3⟩
  · intro hc
    have hc' : Separate op ∧ (s.szIn = 0 ∨ Clean op t2.impl.qIn) := by
      refine ⟨hc.1, ?_⟩
      rcases hc.2 with hh | hh | ⟨hh, hcl⟩
      · exact Or.inl hh
      · exact Or.inr (Or.inr hh)
      · rw [setup_done hh] at e1; cases e1
        rw [H2.q]; exact Or.inr hcl
    refine ⟨?_, hx2 hc'⟩
    have := (hx4 hc').columns (by rw [hx3]; rfl)
    rw [hL] at this
    exact this

/-! ## Assembly with reuse -/

/-- The assembled QFunction held by the operator is not simply returned. -/
def Fresh (s : ASt α) : Prop := s.built = none ∨ s.reuse = false ∨ s.needs = true

theorem buildOrUpdate_wp {op : Oper α} {S : Meaning α} (h : OpOK op S) (junk : Nat → Nat → α) {s : ASt α}
    (hg : Good op S s.st) (hd : AData op s) {R : Prop}
    (hR : R → Fresh s → PassiveReady op s.st ∧ (s.st.impl.done = true → Unlocked s.st) ∧ 0 < op.cIn ∧ 0 < op.cOut ∧
      ¬ IdOnly op) :
    M.wp R (buildOrUpdate op junk) s
      (fun s' v => (Fresh s ∧ ∃ s1, Assembled op S s s1 v ∧ s' = { s1 with built := some v, needs := false }) ∨
        (¬ Fresh s ∧ s.built = some v ∧ s' = { s with needs := false }))
      (fun s' _ => ¬ R ∧ Good op S s'.st ∧ AData op s') := by
  unfold buildOrUpdate
  rw [M.wp_bind]
  have fin : ∀ len, (∀ n, len = some n → n = op.alen) → Fresh s → M.wp R (assembleCore op junk len) s
      (fun s1 v => M.wp R (do
        modA (fun s => { s with built := some v, needs := false })
        pure v) s1 (fun s' v => (Fresh s ∧ ∃ s1, Assembled op S s s1 v ∧ s' = { s1 with built := some v, needs := false }) ∨
        (¬ Fresh s ∧ s.built = some v ∧ s' = { s with needs := false })) (fun s' _ => ¬ R ∧ Good op S s'.st ∧ AData op s'))
      (fun s' _ => ¬ R ∧ Good op S s'.st ∧ AData op s') := by
    intro len hlen hf
    refine M.wp_mono (assembleCore_wp h junk hg hd hlen (R := R) (fun r => hR r hf)) ?_ (fun _ _ hh => ⟨hh.1, hh.2.1, hh.2.2.1⟩)
    intro s1 v hA
    exact Or.inl ⟨hf, s1, hA, rfl⟩
  unfold currentQF
  rw [M.wp_bind]
  refine M.wp_of_eq_ok (s' := s) (a := s) rfl ?_
  rcases hb : s.built with _ | v
  · simp only [hb] at fin
    exact fin none (by intro n hn; cases hn) (Or.inl hb)
  · simp only
    unfold updateQF
    rw [M.wp_bind]
    refine M.wp_of_eq_ok (s' := s) (a := s) rfl ?_
    by_cases hc : s.reuse = false ∨ s.needs = true
    · rw [if_pos hc]
      rw [hb] at fin
      refine fin _ ?_ (Or.inr hc)
      intro n hn
      cases hn
      exact (hd.built v hb).1
    · rw [if_neg hc, M.wp_pure]
      refine Or.inr ⟨?_, rfl, ?_⟩
      · rintro (hh | hh)
        · rw [hb] at hh; cases hh
        · exact hc hh
      · rfl

theorem Assembled.adata {op : Oper α} {S : Meaning α} {s s' : ASt α} {v : Buf α} (h : Assembled op S s s' v)
    (hd : AData op s) : AData op s' := by
  refine ⟨Or.inr ⟨h.sin, h.pin⟩, Or.inr ⟨h.sout, h.pout⟩, fun u hu => ?_⟩
  rw [h.built] at hu
  exact ⟨(hd.built u hu).1, h.sin, h.sout, h.pin, h.pout⟩

theorem Assembled.good {op : Oper α} {S : Meaning α} {s s' : ASt α} {v : Buf α} (h : Assembled op S s s' v) :
    Good op S s'.st := ⟨Or.inr h.inv, h.inv.vz⟩

/-- States of histories with assemblies satisfy the invariant; without failing calls no E-vector is locked. -/
theorem AReach.good {op : Oper α} {S : Meaning α} (h : OpOK op S) {fails : Prop} {s : ASt α} (hr : AReach op fails s) :
    Good op S s.st ∧ AData op s ∧ (¬ fails → s.st.impl.done = true → Unlocked s.st) := by
  have keep : ∀ {s : ASt α} {t : St α}, AData op s → AData op { s with st := t } :=
    fun hd => ⟨hd.sin, hd.sout, hd.built⟩
  induction hr with
  | start s hd hv h1 h2 h3 =>
    exact ⟨⟨Or.inl hd, hv⟩, ⟨Or.inl h1, Or.inl h2, fun v hv => by rw [h3] at hv; cases hv⟩,
      fun _ hh => by rw [hd] at hh; cases hh⟩
  | user _ ha ih =>
    refine ⟨⟨?_, ha.vz ih.1.2⟩, keep ih.2.1, fun hf hd => ih.2.2 hf hd⟩
    rcases ih.1.1 with hd | hi
    · exact Or.inl hd
    · exact Or.inr (hi.adv ha rfl)
  | applyAdd _ e ih =>
    obtain ⟨t, e', rfl⟩ := liftS_eq_ok e
    have := M.wp_ok (Operator.applyAdd_wp h _ ih.1 (R := False) (fun hh => hh.elim)) e'
    exact ⟨this.1, keep ih.2.1, fun hf => this.2.1 (ih.2.2 hf)⟩
  | apply _ e ih =>
    obtain ⟨t, e', rfl⟩ := liftS_eq_ok e
    have := M.wp_ok (Operator.apply_wp h _ ih.1 (R := False) (fun hh => hh.elim)) e'
    exact ⟨this.1, keep ih.2.1, fun hf => this.2.1 (ih.2.2 hf)⟩
  | assemble _ e ih =>
    have := M.wp_ok (assembleCore_wp h _ ih.1 ih.2.1 (by intro n hn; cases hn) (R := False) (fun hh => hh.elim)) e
    exact ⟨this.good, this.adata ih.2.1, fun hf _ => this.unl (ih.2.2 hf)⟩
  | build _ e ih =>
    rcases M.wp_ok (buildOrUpdate_wp h _ ih.1 ih.2.1 (R := False) (fun hh => hh.elim)) e with ⟨_, s1, hA, rfl⟩ | ⟨_, _, rfl⟩
    · refine ⟨hA.good, ⟨Or.inr ⟨hA.sin, hA.pin⟩, Or.inr ⟨hA.sout, hA.pout⟩, fun u hu => ?_⟩, fun hf _ => hA.unl (ih.2.2 hf)⟩
      cases hu
      exact ⟨hA.len, hA.sin, hA.sout, hA.pin, hA.pout⟩
    · exact ⟨ih.1, ⟨ih.2.1.sin, ih.2.1.sout, ih.2.1.built⟩, ih.2.2⟩
  | reuse _ e ih =>
    simp only [setReuse, modA, Out.ok.injEq, and_true] at e
    subst e
    exact ⟨ih.1, ⟨ih.2.1.sin, ih.2.1.sout, ih.2.1.built⟩, ih.2.2⟩
  | needs _ e ih =>
    simp only [setNeeds, modA, Out.ok.injEq, and_true] at e
    subst e
    exact ⟨ih.1, ⟨ih.2.1.sin, ih.2.1.sout, ih.2.1.built⟩, ih.2.2⟩
  | applyAddErr hf _ e ih =>
    obtain ⟨t, e', rfl⟩ := liftS_eq_err e
    exact ⟨(M.wp_err (Operator.applyAdd_wp h _ ih.1 (R := False) (fun hh => hh.elim)) e').2, keep ih.2.1,
      fun hn => absurd hf hn⟩
  | applyErr hf _ e ih =>
    obtain ⟨t, e', rfl⟩ := liftS_eq_err e
    exact ⟨(M.wp_err (Operator.apply_wp h _ ih.1 (R := False) (fun hh => hh.elim)) e').2, keep ih.2.1,
      fun hn => absurd hf hn⟩
  | assembleErr hf _ e ih =>
    have := M.wp_err (assembleCore_wp h _ ih.1 ih.2.1 (by intro n hn; cases hn) (R := False) (fun hh => hh.elim)) e
    exact ⟨this.2.1, this.2.2.1, fun hn => absurd hf hn⟩
  | buildErr hf _ e ih =>
    have := M.wp_err (buildOrUpdate_wp h _ ih.1 ih.2.1 (R := False) (fun hh => hh.elim)) e
    exact ⟨this.2.1, this.2.2, fun hn => absurd hf hn⟩

/-- Without applications in between, the data of the active inputs stay zero. -/
theorem NoApply.sound {op : Oper α} {S : Meaning α} (h : OpOK op S) {s s' : ASt α} (hn : NoApply op s s')
    (hg : Good op S s.st) (hd : AData op s) (hs : Sound op s) :
    Good op S s'.st ∧ AData op s' ∧ Sound op s' := by
  induction hn with
  | refl => exact ⟨hg, hd, hs⟩
  | user _ ha ih =>
    refine ⟨⟨?_, ha.vz ih.1.2⟩, ⟨ih.2.1.sin, ih.2.1.sout, ih.2.1.built⟩, ih.2.2⟩
    rcases ih.1.1 with hd | hi
    · exact Or.inl hd
    · exact Or.inr (hi.adv ha rfl)
  | assemble _ e ih =>
    have := M.wp_ok (assembleCore_wp h _ ih.1 ih.2.1 (by intro n hn; cases hn) (R := False) (fun hh => hh.elim)) e
    exact ⟨this.good, this.adata ih.2.1, ih.2.2.1, Or.inr (Or.inr ⟨this.inv.done, (this.cols ih.2.2).2⟩)⟩
  | build _ e ih =>
    rcases M.wp_ok (buildOrUpdate_wp h _ ih.1 ih.2.1 (R := False) (fun hh => hh.elim)) e with ⟨_, s1, hA, rfl⟩ | ⟨_, _, rfl⟩
    · refine ⟨hA.good, ⟨Or.inr ⟨hA.sin, hA.pin⟩, Or.inr ⟨hA.sout, hA.pout⟩, fun u hu => ?_⟩,
        ih.2.2.1, Or.inr (Or.inr ⟨hA.inv.done, (hA.cols ih.2.2).2⟩)⟩
      cases hu
      exact ⟨hA.len, hA.sin, hA.sout, hA.pin, hA.pout⟩
    · exact ⟨ih.1, ⟨ih.2.1.sin, ih.2.1.sout, ih.2.1.built⟩, ih.2.2⟩
  | reuse _ e ih =>
    simp only [setReuse, modA, Out.ok.injEq, and_true] at e
    subst e
    exact ⟨ih.1, ⟨ih.2.1.sin, ih.2.1.sout, ih.2.1.built⟩, ih.2.2⟩
  | needs _ e ih =>
    simp only [setNeeds, modA, Out.ok.injEq, and_true] at e
    subst e
    exact ⟨ih.1, ⟨ih.2.1.sin, ih.2.1.sout, ih.2.1.built⟩, ih.2.2⟩

end Operator
end Verif
