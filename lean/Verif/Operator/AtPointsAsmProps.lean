import Verif.Operator.AtPointsAsmElem

/-!
# QFunction assembled at points (C79)
-/

set_option linter.unusedSectionVars false

namespace Verif
namespace Operator

open Finset Polynomial
open Restriction (RData Made Rstr PointsOK ptsIn ptAt ptsBefore)
open Basis (Bas EMode PBas Env Fresh Shape Exact Used pev along coord pointPos)

variable {K : Type} [Field K] [LinearOrder K]

/-! ## Setup -/

/-- Inputs other than weights are zero. -/
def ZeroIn (P : POper K) (d : Dyn K) : Prop := ∀ j < P.op.nin, (P.op.inp j).mode ≠ .weight → ∀ x, (d.q j).val x = 0 ∧ (d.eb j).val x = 0

theorem weightsAt_zero {P : POper K} (en : Env K) (mx i : Nat) {s : PSt K} (h : ZeroIn P s.d) :
    M.wp False (weightsAt P en mx i) s (fun s' _ => ZeroIn P s'.d) (fun _ _ => True) := by
  unfold weightsAt
  by_cases hw : (P.op.inp i).mode = .weight
  · rw [if_pos hw]
    cases hb : (P.op.inp i).basis with
    | none => exact M.wp_of_eq_err rfl trivial
    | some b =>
      simp only
      rw [M.wp_bind]
      cases e : onBas (P.inB i) (Basis.applyAtPoints en 1 ⟨1, fun _ => mx⟩ .noTranspose .weight none none ⟨mx, fun _ => 0⟩) s with
      | ub => exact M.wp_of_eq_ub e id
      | err t c => exact M.wp_of_eq_err e trivial
      | ok t v =>
        refine M.wp_of_eq_ok e (M.wp_of_eq_ok rfl ?_)
        unfold onBas at e
        split at e
        · cases e
          intro j hj hwj x
          have hji : j ≠ i := fun hh => hwj (hh ▸ hw)
          show (Function.update s.d.q i v j).val x = 0 ∧ _
          rw [Function.update_of_ne hji]
          exact h j hj hwj x
        · cases e
        · cases e
  · rw [if_neg hw, M.wp_pure]
    exact h

theorem setupAt_zero {P : POper K} {S : PMean K} {b0 : Nat → PBas K} (h : AtOK P S b0) (en : Env K) {s s' : PSt K} (hd : s.base.impl.done = false) (e : setupAt P en s = .ok s' ()) : ZeroAct P s'.d := by
  suffices hs : M.wp False (setupAt P en) s (fun s' _ => ZeroAct P s'.d) (fun _ _ => True) by
    have := M.wp_ok hs e
    exact this
  unfold setupAt
  rw [M.wp_bind]
  refine M.wp_of_eq_ok (s' := s) (a := s) rfl ?_
  rw [hd, if_neg (by simp), M.wp_bind]
  cases hp : P.points with
  | none => exact M.wp_of_eq_ub rfl id
  | some p =>
    refine M.wp_of_eq_ok (s' := s) (a := p) rfl ?_
    rw [M.wp_bind]
    cases hm : Restriction.minMaxPointsInElement p.1 with
    | ub => exact M.wp_of_eq_ub rfl id
    | err c => exact M.wp_of_eq_err rfl trivial
    | ok mm =>
      refine M.wp_of_eq_ok (s' := s) (a := mm) rfl ?_
      rw [M.wp_bind]
      refine M.wp_of_eq_ok rfl ?_
      rw [M.wp_bind]
      refine M.wp_mono (M.wp_loop (fun _ s' => ZeroIn P s'.d) ?_ (fun i _ t ht => weightsAt_zero en _ i ht)) ?_ (fun _ _ _ => trivial)
      · intro j _ _ x
        exact ⟨rfl, rfl⟩
      intro t _ ht
      rw [M.wp_bind]
      cases h1 : setupInWith (OField.evAt mm.2.toNat) P.op with
      | ub => exact M.wp_of_eq_ub rfl id
      | err c => exact M.wp_of_eq_err rfl trivial
      | ok it =>
        refine M.wp_of_eq_ok (s' := t) (a := it) rfl ?_
        rw [M.wp_bind]
        cases h2 : setupOutWith (OField.evAt mm.2.toNat) P.op with
        | ub => exact M.wp_of_eq_ub rfl id
        | err c => exact M.wp_of_eq_err rfl trivial
        | ok ot =>
          refine M.wp_of_eq_ok (s' := t) (a := ot) rfl ?_
          refine M.wp_of_eq_ok rfl ?_
          intro j hj haj x
          unfold qBuf
          by_cases hw : (P.op.inp j).mode = .weight
          · exact absurd hw (h.act_notWeight hj haj)
          · split
            · exact (ht j hj hw x).2
            · exact (ht j hj hw x).1

/-! ## The assembly -/

/-- Active inputs and outputs are not at points. -/
def MeshIn (P : POper K) : Prop := ∀ i < P.op.nin, (P.op.inp i).vec = .active → atPts P (P.op.inp i) = false
def MeshOut (P : POper K) : Prop := ∀ o < P.op.nout, (P.op.out o).vec = .active → atPts P (P.op.out o) = false

/-- States met in histories of assemblies. -/
structure AsmGood (P : POper K) (S : PMean K) (b0 : Nat → PBas K) (s : QSt K) : Prop where
  good : AtGood P S b0 s.p
  zero : s.p.base.impl.done = true → ZeroAct P s.p.d
  qin : s.qin ≠ 0 → s.qin = actComps P.op.inp P.op.nin ∧ MeshIn P
  qout : s.qout ≠ 0 → s.qout = actComps P.op.out P.op.nout ∧ MeshOut P

theorem atPts_none {P : POper K} {S : PMean K} {b0 : Nat → PBas K} {a : OField K} {id : Nat} {acc : Prop} (h : AtField P.op S b0 a id acc)
    (hm : a.mode = .none) : atPts P a = true := by
  obtain ⟨r, hr, hc⟩ := h
  unfold atPts
  rw [hr]
  rcases hc with ⟨_, m, l, hok, hcr, _⟩ | ⟨hm', _⟩
  · obtain ⟨g, _⟩ := Restriction.createAtPoints_rep hok hcr
    simp [g.rtype]
  · rw [hm] at hm'
    rcases hm' with hm' | hm' <;> cases hm'

theorem exists_act {f : Nat → OField K} {n : Nat} (h : 0 < actComps f n) : ∃ o < n, (f o).vec = .active := by
  induction n with
  | zero => exact absurd h (by show ¬ 0 < 0; omega)
  | succ n ih =>
    by_cases ha : (f n).vec = .active
    · exact ⟨n, by omega, ha⟩
    · rw [actComps_pas _ ha] at h
      obtain ⟨o, ho, hh⟩ := ih h
      exact ⟨o, by omega, hh⟩

theorem not_ident {P : POper K} {S : PMean K} {b0 : Nat → PBas K} (h : AtOK P S b0) (hm : MeshOut P) (hp : 0 < actComps P.op.out P.op.nout) :
    P.op.isId = false := by
  cases hI : P.op.isId with
  | false => rfl
  | true =>
    obtain ⟨_, h1, _, h2⟩ := h.ident hI
    obtain ⟨o, ho, hao⟩ := exists_act hp
    have : o = 0 := by omega
    subst this
    have h3 := atPts_none (h.out 0 ho) h2
    rw [hm 0 ho hao] at h3
    cases h3

theorem sizeIn_wp {P : POper K} {s : QSt K} (hq : s.qin ≠ 0 → s.qin = actComps P.op.inp P.op.nin ∧ MeshIn P) {R : Prop}
    (hR : R → MeshIn P ∧ 0 < actComps P.op.inp P.op.nin) :
    M.wp R (sizeIn P) s (fun s' _ => s' = { s with qin := actComps P.op.inp P.op.nin } ∧ MeshIn P ∧ 0 < actComps P.op.inp P.op.nin)
      (fun _ _ => ¬ R) := by
  unfold sizeIn
  rw [M.wp_bind]
  refine M.wp_of_eq_ok (s' := s) (a := s) rfl ?_
  by_cases h0 : s.qin = 0
  · rw [if_pos h0, M.wp_bind]
    cases e : countInAt P P.op.nin with
    | ub => exact absurd e (countInAt_noub _)
    | err c =>
      refine M.wp_of_eq_err (s' := s) (a := c) rfl (fun rr => ?_)
      rw [countInAt_ok (hR rr).1] at e
      cases e
    | ok n =>
      refine M.wp_of_eq_ok (s' := s) (a := n) rfl ?_
      obtain ⟨rfl, hm⟩ := countInAt_inv e
      rw [M.wp_bind]
      refine M.wp_check (fun hne => ?_) (fun hne rr => hne (Nat.pos_iff_ne_zero.1 (hR rr).2))
      exact M.wp_of_eq_ok rfl ⟨rfl, hm, Nat.pos_of_ne_zero hne⟩
  · rw [if_neg h0, M.wp_pure]
    obtain ⟨h1, h2⟩ := hq h0
    exact ⟨by rw [← h1], h2, by omega⟩

theorem sizeOut_wp {P : POper K} {S : PMean K} {b0 : Nat → PBas K} (h : AtOK P S b0) (hk : AsmAtOK P S) {s : PSt K} {d : Dyn K}
    (hd : DInv P S b0 d) (hz : ZeroAct P d) (vs : Nat → LVec K) (off : Nat) {asm : Buf K} {ptr qi qo : Nat}
    (hq : qo ≠ 0 → qo = actComps P.op.out P.op.nout ∧ MeshOut P) {R : Prop} (hR : R → MeshOut P ∧ 0 < actComps P.op.out P.op.nout) :
    M.wp R (sizeOut P) ⟨s.put d vs off, asm, ptr, qi, qo⟩ (fun s' _ => MeshOut P ∧ 0 < actComps P.op.out P.op.nout ∧
        ∃ d', s' = ⟨s.put d' vs off, asm, ptr, qi, actComps P.op.out P.op.nout⟩ ∧ DInv P S b0 d' ∧ ZeroAct P d')
      (fun _ _ => ¬ R) := by
  unfold sizeOut
  rw [M.wp_bind]
  refine M.wp_of_eq_ok (s' := ⟨s.put d vs off, asm, ptr, qi, qo⟩) (a := ⟨s.put d vs off, asm, ptr, qi, qo⟩) rfl ?_
  by_cases h0 : qo = 0
  · rw [if_pos h0, M.wp_bind]
    refine M.wp_mono (onQA_wp (s := ⟨s.put d vs off, asm, ptr, qi, qo⟩) (countOutAt_wp h hk hd hz vs off le_rfl (fun rr => (hR rr).1))) ?_ ?_
    swap
    · rintro s' _ ⟨b, _, hh⟩
      exact hh
    rintro s' m ⟨b, rfl, rfl, hm, d', rfl, c1, c2⟩
    rw [M.wp_bind]
    refine M.wp_check (fun hne => ?_) (fun hne rr => hne (hR rr).2)
    exact M.wp_of_eq_ok rfl ⟨hm, hne, d', rfl, c1, c2⟩
  · rw [if_neg h0, M.wp_pure]
    obtain ⟨h1, h2⟩ := hq h0
    exact ⟨h2, by omega, d, by rw [← h1], hd, hz⟩

variable [IsStrictOrderedRing K]

theorem asmCore_wp {P : POper K} {S : PMean K} {b0 : Nat → PBas K} (h : AtOK P S b0) (hk : AsmAtOK P S)
    {en : Env K} (hen : Exact en) {s : QSt K} (hg : AsmGood P S b0 s) (hps : PassiveSet P s.p.base) {build : Bool}
    (hl : build = false → actComps P.op.inp P.op.nin * actComps P.op.out P.op.nout * ((P.points.map fun p => p.1.numPoints).getD 0) ≤ s.asm.len)
    {R : Prop} (hR : R → AsmReady P s.p.base ∧ (s.p.base.impl.done = true → Unlocked s.p.base)) :
    M.wp R (asmAtCore P en build) s (fun s' _ => AsmGood P S b0 s' ∧
      ((s.p.base.impl.done = true → Unlocked s.p.base) → (s'.p.base.impl.done = true → Unlocked s'.p.base)) ∧
      s'.p.base.vecs = s.p.base.vecs ∧ S.Assembled P s.p.base.L s'.asm ∧
      (MeshIn P ∧ 0 < actComps P.op.inp P.op.nin) ∧ MeshOut P ∧ 0 < actComps P.op.out P.op.nout)
      (fun _ _ => ¬ R) := by
  unfold asmAtCore
  obtain ⟨s1, e1, I1, k4, k5⟩ := setupAt_ok h en hg.good hps
  have Z1 : ZeroAct P s1.d := by
    by_cases hd : s.p.base.impl.done = true
    · have : s1 = s.p := by
        unfold setupAt at e1
        simp only [M.bind_apply, getP, Out.bind_ok] at e1
        rw [if_pos hd] at e1
        cases e1; rfl
      rw [this]
      exact hg.zero hd
    · exact setupAt_zero h en (by simpa using hd) e1
  rw [M.wp_bind]
  refine M.wp_of_eq_ok (onQA_ok e1) ?_
  rw [M.wp_bind]
  refine M.wp_mono (onQA_wp (s := { s with p := s1 }) (onP_wp (setupGen_wp h.gctx I1.g (R := R) (inv := .null) (sk := true) (by
      intro rr i hi hl
      have hna : (P.op.inp i).vec ≠ .active := fun hh => hl.2 ⟨hh, rfl⟩
      obtain ⟨r', v, b1, b2, b3, b4⟩ := (hR rr).1.inp i hi hl.1 hna
      refine ⟨r', v, b1, by rw [b2]; rfl, ?_, ?_⟩
      · rw [k4]; exact b3
      · rw [k4]; exact b4) (fun rr => k5 (hR rr).2)))) ?_ ?_
  swap
  · rintro s' _ ⟨b, rfl, b', _, h1, _⟩
    exact h1
  rintro s' _ ⟨_, rfl, b, rfl, H⟩
  have I3 := I1.gloop H
  have hvs : b.vecs = s.p.base.vecs := by rw [H.vecs, k4]
  have hpre : APre P S s.p.base.L b := by
    refine ⟨I3.g.full, I3.g.skip, I3.ev, I3.ofull, I3.oskip, I3.oadd, H.len, ?_⟩
    intro i hi hw hna
    obtain ⟨r', v, h1, h2, _⟩ := H.ready i hi ⟨hw, fun hh => hna hh.1⟩
    have hv : (P.op.inp i).vec = .vec v := by
      match hvec : (P.op.inp i).vec with
      | .active => exact absurd hvec hna
      | .none => rw [hvec] at h2; cases h2
      | .vec u => rw [hvec] at h2; cases h2; rfl
    have := (H.gath i hi ⟨hw, fun hh => hna hh.1⟩ v (by rw [hv]; rfl)).2
    have hc : (s1.base.vecs v).buf.val = s.p.base.L v := by
      rw [k4]; rfl
    rw [hc] at this
    rw [hv]
    exact this
  rw [M.wp_bind]
  refine M.wp_mono (sizeIn_wp (s := { s with p := { s1 with base := b } }) hg.qin (R := R) (fun rr => ⟨(hR rr).1.meshIn, (hR rr).1.actIn⟩)) ?_
    (fun _ _ hh => hh)
  rintro s' _ ⟨rfl, hmi, hpi⟩
  rw [M.wp_bind]
  refine M.wp_mono (sizeOut_wp h hk (s := { s1 with base := b }) I3.d Z1 b.vecs s1.off (asm := s.asm) (ptr := s.ptr)
    (qi := actComps P.op.inp P.op.nin) hg.qout (R := R) (fun rr => ⟨(hR rr).1.meshOut, (hR rr).1.actOut⟩)) ?_ (fun _ _ hh => hh)
  rintro s' _ ⟨hmo, hpo, d2, rfl, D2, Z2⟩
  obtain ⟨rX, xv, m, l, hP, hok, hcr⟩ := h.points
  rw [M.wp_bind]
  refine M.wp_of_eq_ok (s' := ⟨PSt.put { s1 with base := b } d2 b.vecs s1.off,
    ⟨if build then actComps P.op.inp P.op.nin * actComps P.op.out P.op.nout * rX.numPoints else s.asm.len, fun _ => 0⟩, 0,
    actComps P.op.inp P.op.nin, actComps P.op.out P.op.nout⟩) (a := ()) (by
      unfold clearAsm
      simp only [M.bind_apply, getQA, Out.bind_ok, hP, modQA]) ?_
  rw [M.wp_bind]
  refine M.wp_of_eq_ok (s' := ⟨PSt.put { s1 with base := b } d2 b.vecs 0,
    ⟨if build then actComps P.op.inp P.op.nin * actComps P.op.out P.op.nout * rX.numPoints else s.asm.len, fun _ => 0⟩, 0,
    actComps P.op.inp P.op.nin, actComps P.op.out P.op.nout⟩) (a := ()) rfl ?_
  rw [M.wp_bind]
  have hlen : ptsBefore S.offX P.op.ne * (actComps P.op.inp P.op.nin * actComps P.op.out P.op.nout) ≤
      (if build then actComps P.op.inp P.op.nin * actComps P.op.out P.op.nout * rX.numPoints else s.asm.len) := by
    have h1 := Nat.mul_le_mul_right (actComps P.op.inp P.op.nin * actComps P.op.out P.op.nout) (hk.total rX xv hP)
    rw [Nat.mul_comm rX.numPoints] at h1
    split
    · exact h1
    · rename_i hb
      have := hl (by simpa using hb)
      rw [hP] at this
      exact le_trans h1 this
  refine M.wp_mono (asmElements_wp h (not_ident h hmo hpo) (fun i hi ha hm => by
      have := atPts_none (h.inp i hi (h.act_notWeight hi ha)) hm
      rw [hmi i hi ha] at this; cases this) (s := { s1 with base := b }) (vs := b.vecs) (R := R) hpre hen D2 Z2 (by rw [hvs]; rfl)
      (asm := ⟨if build then actComps P.op.inp P.op.nin * actComps P.op.out P.op.nout * rX.numPoints else s.asm.len, fun _ => 0⟩)
      _ _ hlen (fun rr rX xv hx => by rw [hvs]; exact (hR rr).1.coords rX xv hx)) ?_ (fun _ _ hh => hh)
  rintro s' _ ⟨d', asm', rfl, a1, a2, a3, a4⟩
  have I4 := I3.put a1 (Advances.refl _) (ptsBefore S.offX P.op.ne)
  obtain ⟨rd, e5, hrd⟩ := restoreGen_ok (op := P.op) (G := GathA P.op S) (sk := true) (inv := .null)
    (s := (PSt.put { s1 with base := b } d' b.vecs (ptsBefore S.offX P.op.ne)).base) (fun i hi hw => I4.g.full i hi hw)
  refine M.wp_of_eq_ok (onQA_ok (b := { PSt.put { s1 with base := b } d' b.vecs (ptsBefore S.offX P.op.ne) with
    base := { (PSt.put { s1 with base := b } d' b.vecs (ptsBefore S.offX P.op.ne)).base with
      impl := { (PSt.put { s1 with base := b } d' b.vecs (ptsBefore S.offX P.op.ne)).base.impl with rd := rd } } })
    (a := ()) (by unfold onP; rw [e5])) ?_
  have I5 : AInv P S b0 { PSt.put { s1 with base := b } d' b.vecs (ptsBefore S.offX P.op.ne) with
    base := { (PSt.put { s1 with base := b } d' b.vecs (ptsBefore S.offX P.op.ne)).base with
      impl := { (PSt.put { s1 with base := b } d' b.vecs (ptsBefore S.offX P.op.ne)).base.impl with rd := rd } } } :=
    ⟨I4.done, I4.ev, I4.ofull, I4.oskip, I4.oadd, I4.d, I4.g.adv (Advances.refl _) rfl rfl rfl rfl⟩
  refine ⟨⟨I5.good, fun _ => a2, fun _ => ⟨rfl, hmi⟩, fun _ => ⟨rfl, hmo⟩⟩, fun hu _ => ?_, hvs, ?_, ⟨hmi, hpi⟩, hmo, hpo⟩
  · have hU := k5 hu
    refine ⟨fun k => ?_, fun k => ?_⟩
    · show rd k = 0
      rw [hrd]
      show b.impl.rd k - _ = 0
      rw [H.rd, Nat.add_sub_cancel]
      exact hU.1 k
    · show b.impl.wr k = false
      rw [H.wr]; exact hU.2 k
  · exact assembled_of (by rw [a3]; exact hlen) a4

theorem ReachAsm.good {P : POper K} {S : PMean K} {b0 : Nat → PBas K} (h : AtOK P S b0) (hk : AsmAtOK P S) {s : QSt K}
    (hr : ReachAsm P b0 s) : AsmGood P S b0 s ∧ (s.p.base.impl.done = true → Unlocked s.p.base) := by
  induction hr with
  | start s hd hv hb hi ho =>
    exact ⟨⟨⟨Or.inl hd, hv, fun id => by rw [hb]; exact .new⟩, (fun hh => by rw [hd] at hh; cases hh), fun hh => absurd hi hh,
      fun hh => absurd ho hh⟩, (fun hh => by rw [hd] at hh; cases hh)⟩
  | user _ ha ih => exact ⟨⟨ih.1.good.adv ha rfl, ih.1.zero, ih.1.qin, ih.1.qout⟩, ih.2⟩
  | bases _ hb ih =>
    obtain ⟨⟨⟨i1, i2, i3⟩, z, q1, q2⟩, i4⟩ := ih
    refine ⟨⟨⟨?_, i2, fun id => used_trans (i3 id) (hb id)⟩, z, q1, q2⟩, i4⟩
    rcases i1 with i1 | i1
    · exact Or.inl i1
    · refine Or.inr ⟨i1.done, i1.ev, i1.ofull, i1.oskip, i1.oadd, ?_, i1.g⟩
      exact ⟨i1.d.mx, i1.d.xe, i1.d.q, i1.d.wt, i1.d.w, i1.d.eb, fun id => used_trans (i3 id) (hb id)⟩
  | array a _ ih => exact ⟨⟨ih.1.good, ih.1.zero, ih.1.qin, ih.1.qout⟩, ih.2⟩
  | assemble _ he hp hl e ih =>
    have := M.wp_ok (asmCore_wp h hk he ih.1 hp hl (R := False) (fun hh => hh.elim)) e
    exact ⟨this.1, this.2.1 ih.2⟩

/-! ## C79 -/

section
variable {P : POper K} {S : PMean K} {b0 : Nat → PBas K}

/-- After any history of assemblies, a successful assembly, also the update of an array made before, stores the value of the QFunction
on every unit input, element by element, and changes no vector of the program. Partial: operators applied before and those
excluded by `AsmAtOK` are not covered (see the witnesses). -/
theorem C79_assembled_partial (h : AtOK P S b0) (hk : AsmAtOK P S) {s s' : QSt K} (hr : ReachAsm P b0 s) {en : Env K} (hen : Exact en)
    (hp : PassiveSet P s.p.base) {build : Bool}
    (hl : build = false → actComps P.op.inp P.op.nin * actComps P.op.out P.op.nout * ((P.points.map fun p => p.1.numPoints).getD 0) ≤ s.asm.len)
    (e : asmAtCore P en build s = .ok s' ()) :
    S.Assembled P s.p.base.L s'.asm ∧ s'.p.base.vecs = s.p.base.vecs := by
  have := M.wp_ok (asmCore_wp h hk hen (hr.good h hk).1 hp hl (R := False) (fun hh => hh.elim)) e
  exact ⟨this.2.2.2.1, this.2.2.1⟩

/-- The assembled values are the coefficients of the QFunction: if on element `e` it is linear in the active inputs, at each point by
itself, the assembled array gives its outputs for all active inputs. Partial: as above. -/
theorem C79_action_partial (h : AtOK P S b0) (hk : AsmAtOK P S) {s s' : QSt K} (hr : ReachAsm P b0 s) {en : Env K} (hen : Exact en)
    (hp : PassiveSet P s.p.base) {build : Bool}
    (hl : build = false → actComps P.op.inp P.op.nin * actComps P.op.out P.op.nout * ((P.points.map fun p => p.1.numPoints).getD 0) ≤ s.asm.len)
    (e : asmAtCore P en build s = .ok s' ()) {el : Nat} (hel : el < P.op.ne) (hlin : PtLinear S P s.p.base.L el) (u : Nat → Nat → K)
    {o : Nat} (ho : o < P.op.nout) (hao : (P.op.out o).vec = .active) {k : Nat} (hk' : k < (P.op.out o).size) {p : Nat} (hpp : p < S.np el) :
    P.F (S.np el) (S.mixArr P s.p.base.L el u) o (k * S.np el + p) = ∑ i ∈ (range P.op.nin).filter (fun i => (P.op.inp i).vec = .active),
      ∑ c ∈ range (P.op.inp i).size, s'.asm.val (S.asmPos P el i c o k p) * u i (c * S.np el + p) := by
  obtain ⟨hA, _⟩ := C79_assembled_partial h hk hr hen hp hl e
  obtain ⟨D, hD⟩ := hlin
  rw [hD u o ho hao k hk' p hpp]
  refine sum_congr rfl (fun i hi => sum_congr rfl (fun c hc => ?_))
  obtain ⟨hi1, hi2⟩ := mem_filter.1 hi
  have hi1' := mem_range.1 hi1
  have hc' := mem_range.1 hc
  congr 1
  rw [(hA el hel i hi1' hi2 c hc' o ho hao k hk' p hpp).2]
  have hdiv : ∀ c', (c' * S.np el + p) / S.np el = c' := by
    intro c'
    rw [Nat.mul_comm, Nat.mul_add_div (by omega), Nat.div_eq_of_lt hpp, Nat.add_zero]
  have := hD (fun j x => if j = i ∧ x / S.np el = c then 1 else 0) o ho hao k hk' p hpp
  rw [show S.unitArr P s.p.base.L el i c = S.mixArr P s.p.base.L el (fun j x => if j = i ∧ x / S.np el = c then 1 else 0) from rfl, this]
  simp only [hdiv]
  rw [sum_eq_single i, sum_eq_single c]
  · simp
  · intro c' _ hcc
    rw [if_neg (fun hh => hcc hh.2), mul_zero]
  · intro hh; exact absurd hc hh
  · intro i' _ hii
    refine sum_eq_zero (fun c' _ => ?_)
    rw [if_neg (fun hh => hii hh.1), mul_zero]
  · intro hh; exact absurd hi hh

/-- The assembly succeeds whenever the passive data is there and the active fields are on the mesh. Partial: as above. -/
theorem C79_succeeds_partial (h : AtOK P S b0) (hk : AsmAtOK P S) {s : QSt K} (hr : ReachAsm P b0 s) {en : Env K} (hen : Exact en)
    (hp : PassiveSet P s.p.base) {build : Bool}
    (hl : build = false → actComps P.op.inp P.op.nin * actComps P.op.out P.op.nout * ((P.points.map fun p => p.1.numPoints).getD 0) ≤ s.asm.len)
    (hR : AsmReady P s.p.base) : ∃ s', asmAtCore P en build s = .ok s' () := by
  have hw := asmCore_wp h hk hen (hr.good h hk).1 hp hl (R := True) (fun _ => ⟨hR, (hr.good h hk).2⟩)
  cases e : asmAtCore P en build s with
  | ok s' u => exact ⟨s', rfl⟩
  | err s' c => exact absurd trivial (M.wp_err hw e)
  | ub => exact absurd trivial (M.wp_ub hw e)

/-- Operators with an active field at points, or without active inputs or outputs, are refused. Partial: as above. -/
theorem C79_rejects_partial (h : AtOK P S b0) (hk : AsmAtOK P S) {s s' : QSt K} (hr : ReachAsm P b0 s) {en : Env K} (hen : Exact en)
    (hp : PassiveSet P s.p.base) {build : Bool}
    (hl : build = false → actComps P.op.inp P.op.nin * actComps P.op.out P.op.nout * ((P.points.map fun p => p.1.numPoints).getD 0) ≤ s.asm.len)
    (hbad : (∃ i < P.op.nin, (P.op.inp i).vec = .active ∧ ∃ r, (P.op.inp i).rid = some r ∧ (P.op.rstrs r).rtype = .points) ∨
      (∃ o < P.op.nout, (P.op.out o).vec = .active ∧ ∃ r, (P.op.out o).rid = some r ∧ (P.op.rstrs r).rtype = .points) ∨
      (∀ i < P.op.nin, (P.op.inp i).vec ≠ .active) ∨ ∀ o < P.op.nout, (P.op.out o).vec ≠ .active) :
    asmAtCore P en build s ≠ .ok s' () := by
  intro e
  have := M.wp_ok (asmCore_wp h hk hen (hr.good h hk).1 hp hl (R := False) (fun hh => hh.elim)) e
  obtain ⟨⟨h1, h2⟩, h3, h4⟩ := this.2.2.2.2
  rcases hbad with ⟨i, hi, ha, r, hr, ht⟩ | ⟨i, hi, ha, r, hr, ht⟩ | hb | hb
  · have := h1 i hi ha
    unfold atPts at this
    rw [hr] at this
    simp [ht] at this
  · have := h3 i hi ha
    unfold atPts at this
    rw [hr] at this
    simp [ht] at this
  · obtain ⟨i, hi, ha⟩ := exists_act h2
    exact hb i hi ha
  · obtain ⟨i, hi, ha⟩ := exists_act h4
    exact hb i hi ha

end

end Operator
end Verif
