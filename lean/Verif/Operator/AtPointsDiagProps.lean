import Verif.Operator.AtPointsDiagElem
import Verif.Operator.AtPointsProps

/-!
# Diagonals of operators at points (C69)
-/

set_option linter.unusedSectionVars false

namespace Verif
namespace Operator

open Finset Polynomial
open Restriction (RData Made Rstr PointsOK ptsIn ptAt)
open Basis (Bas EMode PBas Env Fresh Shape Exact Used pev along coord pointPos)

variable {K : Type} [Field K] [LinearOrder K] [IsStrictOrderedRing K]

theorem clearAll_ok {P : POper K} {S : PMean K} {b0 : Nat → PBas K} (h : AtOK P S b0) {s : PSt K} {d : Dyn K} (hd : DInv P S b0 d)
    (vs : Nat → LVec K) (off : Nat) :
    ∃ d', M.loop P.op.nin (clearActive P) (s.put d vs off) = .ok (s.put d' vs off) () ∧ DInv P S b0 d' ∧ ZeroAct P d' := by
  obtain ⟨d', e, h1, h2⟩ := loop_ok (n := P.op.nin) (body := clearActive P) (fun d => s.put d vs off)
    (fun j d => DInv P S b0 d ∧ ∀ k < j, (P.op.inp k).vec = .active → ∀ x, (qBuf P d k).val x = 0) (a := d)
    ⟨hd, fun k hk => absurd hk (by omega)⟩
    (fun i hi d' ⟨a1, a2⟩ => by
      unfold clearActive
      by_cases ha : (P.op.inp i).vec = .active
      · rw [if_pos ha]
        obtain ⟨d2, e2, c1, _, _, c2, _, c3⟩ := clearQ_ok h (s := s) a1 vs off hi ha
        refine ⟨d2, e2, c1, fun k hk hak x => ?_⟩
        by_cases hki : k = i
        · subst hki; exact c2 x
        · rw [c3 k hki]; exact a2 k (by omega) hak x
      · refine ⟨d', by rw [if_neg ha]; rfl, a1, fun k hk hak => ?_⟩
        by_cases hki : k = i
        · subst hki; exact absurd hak ha
        · exact a2 k (by omega) hak)
  exact ⟨d', e, h1, h2⟩

theorem addDiagCore_wp {P : POper K} {S : PMean K} {b0 : Nat → PBas K} (h : AtOK P S b0) {r : Nat} (hk : DiagAtOK P S r)
    {en : Env K} (hen : Exact en) {s : PSt K} (hg : AtGood P S b0 s) (hps : PassiveSet P s.base) {av tmp : Nat} (ha : DiagArgs P av tmp)
    {R : Prop} (hR : R → DiagReady P r av tmp s.base ∧ (s.base.impl.done = true → Unlocked s.base)) :
    M.wp R (addDiagAtCore P en av tmp) s (fun s' _ => AtGood P S b0 s' ∧
      ((s.base.impl.done = true → Unlocked s.base) → (s'.base.impl.done = true → Unlocked s'.base)) ∧
      (∀ v, ¬ DW P av tmp v → s'.base.vecs v = s.base.vecs v) ∧
      ∀ x, Unused P x → ∀ t, s'.base.L av t = s.base.L av t + S.diagAt P s.base.L x t)
      (fun s' _ => ¬ R ∧ AtGood P S b0 s') := by
  unfold addDiagAtCore
  obtain ⟨s1, e1, I1, k4, k5⟩ := setupAt_ok h en hg hps
  rw [M.wp_bind]
  refine M.wp_of_eq_ok e1 ?_
  set vs0 : Nat → LVec K := Function.update s1.base.vecs tmp ⟨(s1.base.vecs tmp).state + 2, true, ⟨(s1.base.vecs tmp).buf.len, fun _ => 0⟩⟩
    with hvs0
  have hadv : Advances s1.base.vecs vs0 := by
    intro v
    by_cases hv : v = tmp
    · subst hv
      rw [hvs0, Function.update_self]
      exact ⟨rfl, Or.inr (by show _ < _ + 2; omega)⟩
    · rw [hvs0, Function.update_of_ne hv]
      exact ⟨rfl, Or.inl rfl⟩
  have hother : ∀ v, v ≠ tmp → vs0 v = s.base.vecs v := fun v hv => by rw [hvs0, Function.update_of_ne hv, k4]
  have hlen : ∀ v, (vs0 v).buf.len = (s.base.vecs v).buf.len := fun v => by rw [(hadv v).1, k4]
  rw [M.wp_bind]
  refine M.wp_of_eq_ok (s' := s1.put s1.d vs0 s1.off) (a := ()) rfl ?_
  obtain ⟨d1, e2, D1, Z1⟩ := clearAll_ok h (s := s1) I1.d vs0 s1.off
  rw [M.wp_bind]
  refine M.wp_of_eq_ok e2 ?_
  have I2 := I1.put D1 hadv s1.off
  rw [M.wp_bind]
  have hU : R → Unlocked (s1.put d1 vs0 s1.off).base := by
    intro rr
    exact k5 (hR rr).2
  have hvp : ∀ i < P.op.nin, ∀ v, (P.op.inp i).vec = .vec v → v ≠ tmp := by
    intro i hi v hv hh
    subst hh
    exact ha.tmp.1 i hi hv
  refine M.wp_mono (onP_wp (setupGen_wp h.gctx I2.g (R := R) (inv := .null) (sk := true) (by
      intro rr i hi hl
      have hna : (P.op.inp i).vec ≠ .active := fun hh => hl.2 ⟨hh, rfl⟩
      obtain ⟨r', v, b1, b2, b3, b4⟩ := (hR rr).1.inp i hi hl.1 hna
      have hvt := hvp i hi v b2
      refine ⟨r', v, b1, by rw [b2]; rfl, ?_, ?_⟩
      · show (vs0 v).valid = true
        rw [hother v hvt]; exact b3
      · show _ ≤ ((vs0 v).buf.len : Int)
        rw [hlen]; exact b4) hU)) ?_ ?_
  swap
  · rintro s' _ ⟨b, rfl, h1, j, h2⟩
    exact ⟨h1, (I2.gloop h2).good⟩
  rintro s' _ ⟨b, rfl, H⟩
  have I3 := I2.gloop H
  have hvs : b.vecs = vs0 := H.vecs
  have hpre : APre P S s.base.L b := by
    refine ⟨I3.g.full, I3.g.skip, I3.ev, I3.ofull, I3.oskip, I3.oadd, H.len, ?_⟩
    intro i hi hw hna
    obtain ⟨r', v, h1, h2, _⟩ := H.ready i hi ⟨hw, fun hh => hna hh.1⟩
    have hv : (P.op.inp i).vec = .vec v := by
      match hvec : (P.op.inp i).vec with
      | .active => exact absurd hvec hna
      | .none => rw [hvec] at h2; cases h2
      | .vec u => rw [hvec] at h2; cases h2; rfl
    have := (H.gath i hi ⟨hw, fun hh => hna hh.1⟩ v (by rw [hv]; rfl)).2
    have hc : ((s1.put d1 vs0 s1.off).base.vecs v).buf.val = s.base.L v := by
      show (vs0 v).buf.val = (s.base.vecs v).buf.val
      rw [hother v (hvp i hi v hv)]
    rw [hc] at this
    rw [hv]
    exact this
  rw [M.wp_bind]
  refine M.wp_of_eq_ok (s' := { ({ s1.put d1 vs0 s1.off with base := b } : PSt K) with off := 0 }) (a := ()) rfl ?_
  rw [M.wp_bind]
  have hrid : ∀ a : OField K, ∀ r, a.rid = some r → a.r = r := by intro a r hr; unfold OField.r; rw [hr]; rfl
  refine M.wp_mono (diagElements_wp h hk (s := { s1.put d1 vs0 s1.off with base := b }) (vs := b.vecs) (R := R) hpre hen I3.d Z1 ha.ne ha.av ?_ ?_) ?_ ?_
  · intro rX xv hx
    refine ⟨?_, ?_⟩
    · rintro (hh | hh | ⟨o, ho, hh⟩)
      · exact ha.av.2.2 rX xv hx hh
      · exact ha.tmp.2.2 rX xv hx hh
      · exact ha.xv rX xv hx o ho hh
    · rw [hvs, hother xv (ha.tmp.2.2 rX xv hx)]; rfl
  · intro rr
    have hr := (hR rr).1
    refine ⟨?_, ?_, ?_, ?_⟩
    · intro rX xv hx
      rw [hvs, hother xv (ha.tmp.2.2 rX xv hx)]
      exact hr.coords rX xv hx
    · intro o ho
      by_cases hact : (P.op.out o).vec = .active
      · refine ⟨tmp, by rw [hact]; rfl, ?_, ?_⟩
        · rw [hvs, hvs0, Function.update_self]
        · rw [hrid _ _ (hk.out o ho hact), hvs, hlen]; exact hr.tmp
      · obtain ⟨r', v, c1, c2, c3, c4⟩ := hr.out o ho hact
        have hvt : v ≠ tmp := fun hh => ha.tmp.2.1 o ho (by rw [c2, hh])
        refine ⟨v, by rw [c2]; rfl, ?_, ?_⟩
        · rw [hvs, hother v hvt]; exact c3
        · rw [hrid _ _ c1, hvs, hlen]; exact c4
    · rw [hvs, hother av ha.ne]; exact hr.av.1
    · rw [hvs, hlen]; exact hr.av.2
  swap
  · rintro s' _ ⟨h1, d', vs', off, rfl, a1, a2⟩
    exact ⟨h1, (I3.put a1 a2.adv off).good⟩
  rintro s' _ ⟨d', vs', off, rfl, a2, a3, a4⟩
  have I4 := I3.put a2 a3.adv off
  obtain ⟨rd, e5, hrd⟩ := restoreGen_ok (op := P.op) (G := GathA P.op S) (sk := true) (inv := .null)
    (s := (PSt.put { s1.put d1 vs0 s1.off with base := b } d' vs' off).base) (fun i hi hw => I4.g.full i hi hw)
  refine M.wp_of_eq_ok (s' := { PSt.put { s1.put d1 vs0 s1.off with base := b } d' vs' off with
    base := { (PSt.put { s1.put d1 vs0 s1.off with base := b } d' vs' off).base with
      impl := { (PSt.put { s1.put d1 vs0 s1.off with base := b } d' vs' off).base.impl with rd := rd } } })
    (a := ()) (by unfold onP; rw [e5]) ?_
  have I5 : AInv P S b0 { PSt.put { s1.put d1 vs0 s1.off with base := b } d' vs' off with
    base := { (PSt.put { s1.put d1 vs0 s1.off with base := b } d' vs' off).base with
      impl := { (PSt.put { s1.put d1 vs0 s1.off with base := b } d' vs' off).base.impl with rd := rd } } } :=
    ⟨I4.done, I4.ev, I4.ofull, I4.oskip, I4.oadd, I4.d, I4.g.adv (Advances.refl _) rfl rfl rfl rfl⟩
  refine ⟨I5.good, fun hu _ => ?_, ?_, ?_⟩
  · have hU := k5 hu
    refine ⟨fun k => ?_, fun k => ?_⟩
    · show rd k = 0
      rw [hrd]
      show b.impl.rd k - _ = 0
      rw [H.rd, Nat.add_sub_cancel]
      exact hU.1 k
    · show b.impl.wr k = false
      rw [H.wr]; exact hU.2 k
  · intro v hv
    show vs' v = _
    rw [a3.other v hv, hvs]
    exact hother v (fun hh => hv (Or.inr (Or.inl hh)))
  · intro x hx t
    show (vs' av).buf.val t = _
    rw [a4 x hx t, hvs, hother av ha.ne]
    rfl

theorem addDiag_wp {P : POper K} {S : PMean K} {b0 : Nat → PBas K} (h : AtOK P S b0) {r : Nat} (hk : DiagAtOK P S r)
    {en : Env K} (hen : Exact en) {s : PSt K} (hg : AtGood P S b0 s) (hps : PassiveSet P s.base) {isz osz av tmp : Nat} (ha : DiagArgs P av tmp)
    {R : Prop} (hR : R → isz = osz ∧ DiagReady P r av tmp s.base ∧ (s.base.impl.done = true → Unlocked s.base)) :
    M.wp R (addDiagAt P en isz osz av tmp) s (fun s' _ => AtGood P S b0 s' ∧
      ((s.base.impl.done = true → Unlocked s.base) → (s'.base.impl.done = true → Unlocked s'.base)) ∧
      (∀ v, ¬ DW P av tmp v → s'.base.vecs v = s.base.vecs v) ∧
      ∀ x, Unused P x → ∀ t, s'.base.L av t = s.base.L av t + S.diagAt P s.base.L x t)
      (fun s' _ => ¬ R ∧ AtGood P S b0 s') := by
  unfold addDiagAt
  rw [M.wp_bind]
  refine M.wp_check ?_ (fun hh => ⟨fun rr => hh (hR rr).1, hg⟩)
  intro _
  split
  · rename_i h0
    rw [M.wp_pure]
    refine ⟨hg, fun hu => hu, fun _ _ => rfl, fun x _ t => ?_⟩
    unfold PMean.diagAt PMean.action
    rw [h0]
    simp
  · exact addDiagCore_wp h hk hen hg hps ha (fun rr => (hR rr).2)

theorem assembleDiag_wp {P : POper K} {S : PMean K} {b0 : Nat → PBas K} (h : AtOK P S b0) {r : Nat} (hk : DiagAtOK P S r)
    {en : Env K} (hen : Exact en) {s : PSt K} (hg : AtGood P S b0 s) (hps : PassiveSet P s.base) {isz osz av tmp : Nat} (ha : DiagArgs P av tmp)
    {R : Prop} (hR : R → isz = osz ∧ DiagReady P r av tmp { s.base with vecs := Function.update s.base.vecs av ⟨(s.base.vecs av).state + 2, true,
      ⟨(s.base.vecs av).buf.len, fun _ => 0⟩⟩ } ∧ (s.base.impl.done = true → Unlocked s.base)) :
    M.wp R (assembleDiagAt P en isz osz av tmp) s (fun s' _ => AtGood P S b0 s' ∧
      ((s.base.impl.done = true → Unlocked s.base) → (s'.base.impl.done = true → Unlocked s'.base)) ∧
      (∀ v, ¬ DW P av tmp v → s'.base.vecs v = s.base.vecs v) ∧
      (0 < P.op.ne → ∀ x, Unused P x → ∀ t, s'.base.L av t = S.diagAt P s.base.L x t))
      (fun s' _ => ¬ R ∧ AtGood P S b0 s') := by
  unfold assembleDiagAt
  rw [M.wp_bind]
  refine M.wp_check ?_ (fun hh => ⟨fun rr => hh (hR rr).1, hg⟩)
  intro _
  split
  · rename_i h0
    rw [M.wp_pure]
    exact ⟨hg, fun hu => hu, fun _ _ => rfl, fun hh => absurd hh (by omega)⟩
  set b : St K := { s.base with vecs := Function.update s.base.vecs av ⟨(s.base.vecs av).state + 2, true, ⟨(s.base.vecs av).buf.len, fun _ => 0⟩⟩ }
    with hb
  have hadv : Advances s.base.vecs b.vecs := by
    intro v
    by_cases hv : v = av
    · subst hv
      rw [hb]
      simp only [Function.update_self]
      exact ⟨trivial, Or.inr (by omega)⟩
    · rw [hb]
      simp only [Function.update_of_ne hv]
      exact ⟨trivial, Or.inl trivial⟩
  rw [M.wp_bind]
  refine M.wp_of_eq_ok (s' := { s with base := b }) (a := ()) rfl ?_
  refine M.wp_mono (addDiagCore_wp h hk hen (hg.adv hadv rfl) (hps.adv hadv) ha (R := R) (fun rr => (hR rr).2)) ?_ (fun _ _ hh => hh)
  rintro s' _ ⟨a1, a2, a3, a4⟩
  refine ⟨a1, a2, fun v hv => ?_, fun _ x hx t => ?_⟩
  · rw [a3 v hv]
    show Function.update s.base.vecs av _ v = _
    rw [Function.update_of_ne (fun hh => hv (Or.inl hh))]
  · rw [a4 x hx t]
    have h0 : b.L av t = 0 := by
      show (Function.update s.base.vecs av _ av).buf.val t = 0
      rw [Function.update_self]
    have hL : ∀ v, v ≠ av → b.L v = s.base.L v := by
      intro v hv
      show (Function.update s.base.vecs av _ v).buf.val = _
      rw [Function.update_of_ne hv]; rfl
    show b.L av t + S.diagAt P b.L x t = _
    rw [h0, zero_add]
    unfold PMean.diagAt
    have hL' : ∀ v, v ≠ av → Function.update b.L x (Pi.single t 1) v = Function.update s.base.L x (Pi.single t 1) v := by
      intro v hv
      by_cases hvx : v = x
      · subst hvx; rw [Function.update_self, Function.update_self]
      · rw [Function.update_of_ne hvx, Function.update_of_ne hvx, hL v hv]
    refine S.action_congr (fun i hi hw => ?_) ?_ _ _ _
    · match hvec : (P.op.inp i).vec with
      | .active =>
        show Function.update b.L x (Pi.single t 1) x = Function.update s.base.L x (Pi.single t 1) x
        rw [Function.update_self, Function.update_self]
      | .none => rfl
      | .vec u => exact hL' u (fun hh => ha.av.1 i hi (by rw [hvec, hh]))
    · unfold POper.coords
      match hp : P.points with
      | none => rfl
      | some (rX, xv) => exact hL' xv (ha.av.2.2 rX xv hp)

theorem ReachDiag.good {P : POper K} {S : PMean K} {b0 : Nat → PBas K} (h : AtOK P S b0) {r : Nat} (hk : DiagAtOK P S r) {fails : Prop} {s : PSt K}
    (hr : ReachDiag P b0 fails s) : AtGood P S b0 s ∧ (¬ fails → s.base.impl.done = true → Unlocked s.base) := by
  induction hr with
  | start s hd hv hb => exact ⟨⟨Or.inl hd, hv, fun id => by rw [hb]; exact .new⟩, fun _ hh => by rw [hd] at hh; cases hh⟩
  | user _ ha ih => exact ⟨ih.1.adv ha rfl, fun hf hd => ih.2 hf hd⟩
  | bases _ hb ih =>
    obtain ⟨⟨i1, i2, i3⟩, i4⟩ := ih
    refine ⟨⟨?_, i2, fun id => used_trans (i3 id) (hb id)⟩, i4⟩
    rcases i1 with i1 | i1
    · exact Or.inl i1
    · refine Or.inr ⟨i1.done, i1.ev, i1.ofull, i1.oskip, i1.oadd, ?_, i1.g⟩
      exact ⟨i1.d.mx, i1.d.xe, i1.d.q, i1.d.wt, i1.d.w, i1.d.eb, fun id => used_trans (i3 id) (hb id)⟩
  | applyAdd _ he hp e ih =>
    have := M.wp_ok (addAt_wp h he ih.1 hp (R := False) (fun hh => hh.elim)) e
    exact ⟨this.1, fun hf => this.2.1 (ih.2 hf)⟩
  | apply _ he hp e ih =>
    have := M.wp_ok (atApply_wp h he ih.1 hp (R := False) (fun hh => hh.elim)) e
    exact ⟨this.1, fun hf => this.2.1 (ih.2 hf)⟩
  | addDiag _ he hp ha e ih =>
    have := M.wp_ok (addDiag_wp h hk he ih.1 hp ha (R := False) (fun hh => hh.elim)) e
    exact ⟨this.1, fun hf => this.2.1 (ih.2 hf)⟩
  | diag _ he hp ha e ih =>
    have := M.wp_ok (assembleDiag_wp h hk he ih.1 hp ha (R := False) (fun hh => hh.elim)) e
    exact ⟨this.1, fun hf => this.2.1 (ih.2 hf)⟩
  | applyAddErr hf _ he hp e ih =>
    exact ⟨(M.wp_err (addAt_wp h he ih.1 hp (R := False) (fun hh => hh.elim)) e).2, fun hn => absurd hf hn⟩
  | applyErr hf _ he hp e ih =>
    exact ⟨(M.wp_err (atApply_wp h he ih.1 hp (R := False) (fun hh => hh.elim)) e).2, fun hn => absurd hf hn⟩
  | addDiagErr hf _ he hp ha e ih =>
    exact ⟨(M.wp_err (addDiag_wp h hk he ih.1 hp ha (R := False) (fun hh => hh.elim)) e).2, fun hn => absurd hf hn⟩
  | diagErr hf _ he hp ha e ih =>
    exact ⟨(M.wp_err (assembleDiag_wp h hk he ih.1 hp ha (R := False) (fun hh => hh.elim)) e).2, fun hn => absurd hf hn⟩

/-! ## C69 -/

variable {P : POper K} {S : PMean K} {b0 : Nat → PBas K} {r : Nat}

/-- After any history of applications and assemblies, failed calls included, a successful
`CeedOperatorLinearAssembleAddDiagonal` of an operator at points adds the diagonal of the operator to the given vector:
entry `t` of the action on the unit vector `t`, whatever vector `x` that is not otherwise used holds the unit vector. Only that vector,
the new work vector `tmp` and passive outputs change.
Partial: `AtOK` and `DiagAtOK` exclude operators that the library accepts, and passive outputs do change (see the witnesses). -/
theorem C69_add_diagonal_partial (h : AtOK P S b0) (hk : DiagAtOK P S r) {s s' : PSt K} (hr : ReachDiag P b0 True s) {en : Env K} (hen : Exact en)
    (hp : PassiveSet P s.base) {isz osz av tmp : Nat} (ha : DiagArgs P av tmp) (e : addDiagAt P en isz osz av tmp s = .ok s' ()) :
    (∀ x, Unused P x → ∀ t, s'.base.L av t = s.base.L av t + S.diagAt P s.base.L x t) ∧
    ∀ v, v ≠ av → v ≠ tmp → (∀ o < P.op.nout, (P.op.out o).vec ≠ .vec v) → s'.base.vecs v = s.base.vecs v := by
  have := M.wp_ok (addDiag_wp h hk hen (hr.good h hk).1 hp ha (R := False) (fun hh => hh.elim)) e
  refine ⟨this.2.2.2, fun v h1 h2 h3 => this.2.2.1 v ?_⟩
  rintro (hh | hh | ⟨o, ho, hh⟩)
  · exact h1 hh
  · exact h2 hh
  · exact h3 o ho hh

/-- After any history, a successful `CeedOperatorLinearAssembleDiagonal` of an operator at points that has elements stores the
diagonal of the operator. Partial: as above; without elements nothing is stored (`C69_empty_witness`). -/
theorem C69_diagonal_partial (h : AtOK P S b0) (hk : DiagAtOK P S r) {s s' : PSt K} (hr : ReachDiag P b0 True s) {en : Env K} (hen : Exact en)
    (hp : PassiveSet P s.base) (hne : 0 < P.op.ne) {isz osz av tmp : Nat} (ha : DiagArgs P av tmp)
    (e : assembleDiagAt P en isz osz av tmp s = .ok s' ()) :
    (∀ x, Unused P x → ∀ t, s'.base.L av t = S.diagAt P s.base.L x t) ∧
    ∀ v, v ≠ av → v ≠ tmp → (∀ o < P.op.nout, (P.op.out o).vec ≠ .vec v) → s'.base.vecs v = s.base.vecs v := by
  have := M.wp_ok (assembleDiag_wp h hk hen (hr.good h hk).1 hp ha (R := False) (fun hh => hh.elim)) e
  refine ⟨this.2.2.2 hne, fun v h1 h2 h3 => this.2.2.1 v ?_⟩
  rintro (hh | hh | ⟨o, ho, hh⟩)
  · exact h1 hh
  · exact h2 hh
  · exact h3 o ho hh

/-- After a history without failing calls, the diagonal is added without error or undefined behaviour if all vectors are ready and
active input and output have the same length. Partial: as above. -/
theorem C69_add_diagonal_succeeds_partial (h : AtOK P S b0) (hk : DiagAtOK P S r) {s : PSt K} (hr : ReachDiag P b0 False s) {en : Env K}
    (hen : Exact en) (hp : PassiveSet P s.base) {n av tmp : Nat} (ha : DiagArgs P av tmp) (hrd : DiagReady P r av tmp s.base) :
    ∃ s', addDiagAt P en n n av tmp s = .ok s' () := by
  have hg := hr.good h hk
  have := addDiag_wp h hk hen hg.1 hp (isz := n) (osz := n) ha (R := True) (fun _ => ⟨rfl, hrd, hg.2 (fun hh => hh)⟩)
  cases e : addDiagAt P en n n av tmp s with
  | ok s' a => exact ⟨s', rfl⟩
  | err s' c => exact absurd trivial (M.wp_err this e).1
  | ub => exact absurd trivial (M.wp_ub this e)

/-- Diagonals are refused if active input and output have different lengths, and nothing changes. -/
theorem C69_not_square {en : Env K} {isz osz : Nat} (hne : isz ≠ osz) (av tmp : Nat) (s : PSt K) :
    addDiagAt P en isz osz av tmp s = .err s .dimension ∧ assembleDiagAt P en isz osz av tmp s = .err s .dimension := by
  constructor
  · unfold addDiagAt
    rw [M.bind_apply]
    unfold M.check
    rw [if_neg hne]
    rfl
  · unfold assembleDiagAt
    rw [M.bind_apply]
    unfold M.check
    rw [if_neg hne]
    rfl

/-- Applications after assemblies of the diagonal add the action of the operator all the same: the assembly leaves no unit vector
behind. Partial: as above. -/
theorem C69_apply_after_partial (h : AtOK P S b0) (hk : DiagAtOK P S r) {s s' : PSt K} (hr : ReachDiag P b0 True s) {en : Env K} (hen : Exact en)
    {inv outv : VPtr} (hp : PassiveSet P s.base) (ha : AtApart P inv outv) (e : applyAddAt P en inv outv s = .ok s' ()) :
    (∀ v t, s'.base.L v t = s.base.L v t + S.action P s.base.L inv outv v t) ∧
    ∀ v, (∀ o < P.op.nout, (P.op.out o).vec.ptr outv ≠ .vec v) → s'.base.vecs v = s.base.vecs v := by
  have := M.wp_ok (addAt_wp h hen (hr.good h hk).1 hp (R := False) (fun hh => hh.elim)) e
  exact ⟨this.2.2.2.2 ha, this.2.2.2.1.other⟩

end Operator
end Verif
