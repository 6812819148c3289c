import Verif.Operator.AtPointsApply
import Verif.Operator.OptProps
import Verif.Basis.PointsMore

/-!
# C56: operators at points, reference backend
-/

set_option linter.unusedSectionVars false

namespace Verif
namespace Operator

open Finset Polynomial
open Restriction (RData Made Rstr Rep laneEnd PointsOK ptsIn ptAt ptsBefore maxPts)
open Basis (Bas EMode PBas Env Fresh Shape Exact Used pev along coord pointPos)

variable {K : Type} [Field K] [LinearOrder K]

/-! ## Cached E-vectors -/

/-- The E-vector `b` of input `i` holds the values of `u`. -/
def GathA (op : Oper K) (S : PMean K) (i : Nat) (b : Buf K) (u : Nat → K) : Prop :=
  ∀ e < op.ne, ∀ x < cntR op S e (op.inp i).r, b.val (posR op S e (op.inp i).r + x) = gvR op S e (op.inp i).r u x

theorem AtOK.gctx {P : POper K} {S : PMean K} {b0 : Nat → PBas K} (h : AtOK P S b0) : GCtx P.op (GathA P.op S) := by
  refine ⟨fun i hi hw => ⟨_, (h.inp i hi hw).ok.2⟩, ?_, ?_, ?_⟩
  · intro i hi hw
    rcases Nat.lt_or_ge (first P.op i) i with hf | hf
    · exact (h.shareIn _ _ hf hi (first_same P.op i)).1
    · have := first_le P.op i
      rw [show first P.op i = i by omega]; exact hw
  · intro i hi hw r hr u v hu hv
    obtain ⟨h1, h2⟩ := (h.inp i hi hw).ok
    rw [h2] at hr
    cases hr
    have hv' : v.len = (P.op.rstrs (P.op.inp i).r).eSize := by
      rw [hv]; unfold eSizeOf; rw [h2]
    exact full_ok h1 hu hv'
  · intro i j b u hs hg e he x hx
    have : (P.op.inp j).r = (P.op.inp i).r := by unfold OField.r; rw [(same_iff.1 hs).2]
    rw [this] at hx ⊢
    exact hg e he x hx

theorem AtField.ev {op : Oper K} {S : PMean K} {b0 : Nat → PBas K} {a : OField K} {id : Nat} {acc : Prop}
    (h : AtField op S b0 a id acc) (mx : Nat) : a.evAt mx = some (lenR op S mx a.r) := by
  unfold OField.evAt
  rcases mode_cases a.mode with hm | hm | hm
  · exact absurd hm h.notWeight
  · obtain ⟨k1, k2⟩ := h.none hm
    rw [if_pos hm]
    unfold lenR
    rw [if_pos k1, k2]
  · have hnn : a.mode ≠ .none := by intro hh; rw [hh] at hm; simp [isBasisMode] at hm
    obtain ⟨_, f2, f3, f4, f5, _⟩ := h.basis hm
    rw [if_neg hnn, if_pos hm, f3]
    unfold lenR
    rw [if_neg f2.facts.1, ← f4, ← f5]
    rfl

/-- State after the setup. -/
structure AInv (P : POper K) (S : PMean K) (b0 : Nat → PBas K) (s : PSt K) : Prop where
  done : s.base.impl.done = true
  ev : ∀ i < P.op.nin, isBasisMode (P.op.inp i).mode = true → s.base.impl.it.ev i = some (lenR P.op S (mxOf P.op S) (P.op.inp i).r)
  ofull : ∀ o < P.op.nout, s.base.impl.ot.full o = some (last P.op o)
  oskip : ∀ o < P.op.nout, (s.base.impl.ot.skip o = true ↔ o < last P.op o)
  oadd : ∀ o < P.op.nout, (s.base.impl.ot.add o = true ↔ ∃ i < o, (P.op.out i).same (P.op.out o) = true)
  d : DInv P S b0 s.d
  g : GInv P.op (GathA P.op S) s.base

/-- States met in histories. -/
def AtGood (P : POper K) (S : PMean K) (b0 : Nat → PBas K) (s : PSt K) : Prop :=
  (s.base.impl.done = false ∨ AInv P S b0 s) ∧ (∀ v, (s.base.vecs v).state = 0 → (s.base.vecs v).valid = false) ∧
  ∀ id, Used (b0 id) (s.d.bas id)

theorem AInv.good {P : POper K} {S : PMean K} {b0 : Nat → PBas K} {s : PSt K} (h : AInv P S b0 s) : AtGood P S b0 s :=
  ⟨Or.inr h, h.g.vz, h.d.bas⟩

/-- Only the element data and the vectors change. -/
theorem AInv.put {P : POper K} {S : PMean K} {b0 : Nat → PBas K} {s : PSt K} (h : AInv P S b0 s) {d : Dyn K} (hd : DInv P S b0 d)
    {vs : Nat → LVec K} (hv : Advances s.base.vecs vs) (off : Nat) : AInv P S b0 (s.put d vs off) :=
  ⟨h.done, h.ev, h.ofull, h.oskip, h.oadd, hd, h.g.adv hv rfl rfl rfl rfl⟩

theorem AInv.gloop {P : POper K} {S : PMean K} {b0 : Nat → PBas K} {s : PSt K} (h : AInv P S b0 s) {sk : Bool} {inv : VPtr} {b : St K} {j : Nat}
    (hl : GLoop P.op (GathA P.op S) sk inv s.base b j) : AInv P S b0 { s with base := b } := by
  refine ⟨hl.done ▸ h.done, ?_, ?_, ?_, ?_, h.d, hl.inv h.g⟩
  · show ∀ i < P.op.nin, _ → b.impl.it.ev i = _
    rw [hl.it]; exact h.ev
  · show ∀ o < P.op.nout, b.impl.ot.full o = _
    rw [hl.ot]; exact h.ofull
  · show ∀ o < P.op.nout, (b.impl.ot.skip o = true ↔ _)
    rw [hl.ot]; exact h.oskip
  · show ∀ o < P.op.nout, (b.impl.ot.add o = true ↔ _)
    rw [hl.ot]; exact h.oadd

theorem minMax_mx {ne m nc : Nat} {l : Int} {offs : Buf Int} {r : Rstr} (hok : PointsOK ne m nc l offs)
    (h : Restriction.createAtPoints ne m nc l offs = .ok r) :
    ∃ lo : Int, Restriction.minMaxPointsInElement r = .ok (lo, (maxPts offs ne : Int)) := by
  obtain ⟨lo, hi, e, h1, h2, e0, he0, h3⟩ := Restriction.C19_min_max_points hok h
  refine ⟨lo, ?_⟩
  rw [e]
  have a1 : hi ≤ maxPts offs ne := by rw [← h3]; exact Restriction.le_maxPts offs he0
  have a2 : ∀ B ≤ ne, maxPts offs B ≤ hi := by
    intro B
    induction B with
    | zero => intro _; exact Nat.zero_le _
    | succ B ih => intro hB; exact max_le (ih (by omega)) (h1 B (by omega)).2
  have := a2 ne le_rfl
  rw [show hi = maxPts offs ne by omega]

variable [IsStrictOrderedRing K]

theorem weights_ok {P : POper K} {S : PMean K} {b0 : Nat → PBas K} (h : AtOK P S b0) (en : Env K) (mx : Nat) {s : PSt K}
    (hq : ∀ i < P.op.nin, (s.d.q i).len = mx * (P.op.inp i).size) (hu : ∀ id, Used (b0 id) (s.d.bas id)) :
    ∃ q, M.loop P.op.nin (weightsAt P en mx) s = .ok { s with d := { s.d with q := q } } () ∧
      (∀ i < P.op.nin, (q i).len = mx * (P.op.inp i).size) ∧
      ∀ i < P.op.nin, (P.op.inp i).mode = .weight → ∀ x < mx, (q i).val x = 1 := by
  obtain ⟨q, e, h1, h2⟩ := loop_ok (n := P.op.nin) (body := weightsAt P en mx) (fun q => ({ s with d := { s.d with q := q } } : PSt K))
    (fun j q => (∀ i < P.op.nin, (q i).len = mx * (P.op.inp i).size) ∧
      ∀ i < j, (P.op.inp i).mode = .weight → ∀ x < mx, (q i).val x = 1) (a := s.d.q)
    ⟨hq, fun i hi => absurd hi (by omega)⟩
    (fun i hi q ⟨a1, a2⟩ => by
      unfold weightsAt
      by_cases hw : (P.op.inp i).mode = .weight
      · obtain ⟨_, _, w3, w4, i1, g1, w, qq, hF, _⟩ := h.weight i hi hw
        have hb : (s.d.bas (P.inB i)).bas = (b0 (P.inB i)).bas := (Basis.used_inv hF (hu _)).bas
        obtain ⟨hT, _⟩ := Basis.tensorOK_of hF.basis
        obtain ⟨v', ev, hl, h1⟩ := Basis.C25_weight (s := s.d.bas (P.inB i)) (en := en) (np := ⟨1, fun _ => mx⟩) (by simp) (x := none) (u := none)
          (v := ⟨mx, fun _ => 0⟩) (by rw [hb]; exact hT.dim) (by rw [hb]; exact hT.tensor) le_rfl
        refine ⟨Function.update q i v', ?_, ?_, ?_⟩
        · rw [if_pos hw, w4]
          simp only [M.bind_apply, onBas, ev, Out.bind_ok, Function.update_eq_self]
          rfl
        · intro j hj
          by_cases hji : j = i
          · subst hji; rw [Function.update_self, hl, w3, Nat.mul_one]
          · rw [Function.update_of_ne hji]; exact a1 j hj
        · intro j hj hwj x hx
          by_cases hji : j = i
          · subst hji; rw [Function.update_self]; exact h1 x hx
          · rw [Function.update_of_ne hji]; exact a2 j (by omega) hwj x hx
      · refine ⟨q, by rw [if_neg hw]; rfl, a1, fun j hj hwj => ?_⟩
        by_cases hji : j = i
        · subst hji; exact absurd hwj hw
        · exact a2 j (by omega) hwj)
  exact ⟨q, e, h1, h2⟩

theorem setupAt_ok {P : POper K} {S : PMean K} {b0 : Nat → PBas K} (h : AtOK P S b0) (en : Env K) {s : PSt K}
    (hg : AtGood P S b0 s) (hps : PassiveSet P s.base) :
    ∃ s', setupAt P en s = .ok s' () ∧ AInv P S b0 s' ∧ s'.base.vecs = s.base.vecs ∧
      ((s.base.impl.done = true → Unlocked s.base) → Unlocked s'.base) := by
  unfold setupAt
  simp only [M.bind_apply, getP, Out.bind_ok]
  by_cases hd : s.base.impl.done = true
  · refine ⟨s, by rw [if_pos hd]; rfl, ?_, rfl, fun hu => hu hd⟩
    rcases hg.1 with h1 | h1
    · rw [h1] at hd; cases hd
    · exact h1
  rw [if_neg hd]
  obtain ⟨rX, xv, m, l, hP, hok, hcr⟩ := h.points
  obtain ⟨lo, emm⟩ := minMax_mx hok hcr
  obtain ⟨hrX, _⟩ := Restriction.createAtPoints_rep hok hcr
  have hsame : ∀ (f : Nat → OField K) (i j : Nat), (f i).same (f j) = true →
      lenR P.op S (mxOf P.op S) (f j).r = lenR P.op S (mxOf P.op S) (f i).r := by
    intro f i j hs
    unfold OField.r; rw [(same_iff.1 hs).2]
  obtain ⟨it, e2, a1, a2, a3⟩ := setupInWith_spec (op := P.op) (ev0 := OField.evAt (mxOf P.op S))
    (E := fun j => lenR P.op S (mxOf P.op S) (P.op.inp j).r) (hsame P.op.inp)
    (fun i j hij hj hs _ => by
      have hb := (h.shareIn i j hij hj hs).1
      exact ⟨hb, (h.inp i (by omega) hb).ev _⟩)
  obtain ⟨ot, e3, b1, b2, b3, b4, b5⟩ := setupOutWith_spec (op := P.op) (ev0 := OField.evAt (mxOf P.op S))
    (E := fun j => lenR P.op S (mxOf P.op S) (P.op.out j).r) (hsame P.op.out) (fun j hj => (h.out j hj).notWeight)
    (fun j i hij hi hs => (h.out i hi).ev _)
  have hmx : (maxPts S.offX P.op.ne : Int).toNat = mxOf P.op S := rfl
  obtain ⟨q, e1, q1, q2⟩ := weights_ok h en (mxOf P.op S) (s := { s with d := { s.d with
      q := fun i => ⟨mxOf P.op S * (P.op.inp i).size, fun _ => 0⟩
      eb := fun i => ⟨((P.op.inp i).evAt (mxOf P.op S)).getD 0, fun _ => 0⟩
      w := fun o => ⟨((P.op.out o).evAt (mxOf P.op S)).getD 0, fun _ => 0⟩
      xe := ⟨rX.numComp * mxOf P.op S, fun _ => 0⟩
      mx := mxOf P.op S } }) (fun i _ => rfl) hg.2.2
  simp only [M.bind_apply, hP, pptr, M.pure_apply, emm, M.lift_ok, Out.bind_ok, hmx, modD, e1, e2, e3, modI, onP]
  refine ⟨_, rfl, ⟨rfl, ?_, b2, b1, b4, ?_, ?_⟩, rfl, fun _ => ⟨fun _ => rfl, fun _ => rfl⟩⟩
  · intro i hi hm
    show it.ev i = _
    rw [a3 i hi]
    split
    · rfl
    · exact (h.inp i hi (weight_not_basis hm)).ev _
  · refine ⟨rfl, ?_, q1, q2, ?_, ?_, hg.2.2⟩
    · show rX.numComp * _ = _
      rw [hrX.hnc]
    · intro o ho
      show ((P.op.out o).evAt _).getD 0 = _
      rw [(h.out o ho).ev]; rfl
    · intro i hi hw
      show ((P.op.inp i).evAt _).getD 0 = _
      rw [(h.inp i hi hw).ev]; rfl
  · refine ⟨a2, a1, fun i _ => rfl, hg.2.1, ?_⟩
    intro i hi hw hf
    unfold CacheG
    split
    · trivial
    · rename_i hv
      obtain ⟨v, hv', _⟩ := hps i hi hw (by rw [hv]; simp)
      rw [hv] at hv'; cases hv'
    · rename_i v hv
      refine ⟨Nat.zero_le _, fun hz => ?_⟩
      obtain ⟨v', hv', hs⟩ := hps i hi hw (by rw [hv]; simp)
      rw [hv] at hv'; cases hv'
      have : 0 = (s.base.vecs v).state := hz
      omega

theorem onP_wp {β : Type} {m : M (St K) β} {s : PSt K} {R : Prop} {Q : St K → β → Prop} {E : St K → Err → Prop}
    (h : M.wp R m s.base Q E) :
    M.wp R (onP m) s (fun s' a => ∃ b, s' = { s with base := b } ∧ Q b a) (fun s' a => ∃ b, s' = { s with base := b } ∧ E b a) := by
  cases e : m s.base with
  | ok b a => exact M.wp_of_eq_ok (s' := { s with base := b }) (a := a) (by unfold onP; rw [e]) ⟨b, rfl, M.wp_ok h e⟩
  | err b a => exact M.wp_of_eq_err (s' := { s with base := b }) (a := a) (by unfold onP; rw [e]) ⟨b, rfl, M.wp_err h e⟩
  | ub => exact M.wp_of_eq_ub (by unfold onP; rw [e]) (M.wp_ub h e)

theorem addAt_wp {P : POper K} {S : PMean K} {b0 : Nat → PBas K} (h : AtOK P S b0) {en : Env K} (hen : Exact en)
    {s : PSt K} (hg : AtGood P S b0 s) (hps : PassiveSet P s.base) {inv outv : VPtr} {R : Prop}
    (hR : R → AtInReady P inv s.base ∧ AtOutReady P outv s.base ∧ (s.base.impl.done = true → Unlocked s.base)) :
    M.wp R (applyAddAt P en inv outv) s (fun s' _ => AtGood P S b0 s' ∧
      ((s.base.impl.done = true → Unlocked s.base) → (s'.base.impl.done = true → Unlocked s'.base)) ∧
      (0 < P.op.ne → AtInReady P inv s.base ∧ AtOutReady P outv s.base) ∧
      VStep P.op outv s.base.vecs s'.base.vecs ∧
      (AtApart P inv outv → ∀ v t, s'.base.L v t = s.base.L v t + S.action P s.base.L inv outv v t))
      (fun s' _ => ¬ R ∧ AtGood P S b0 s') := by
  unfold applyAddAt
  by_cases hne : 0 < P.op.ne
  swap
  · rw [if_neg hne, M.wp_pure]
    refine ⟨hg, fun hu => hu, fun hh => absurd hh hne, VStep.refl _ _ _, fun _ v t => ?_⟩
    have h0 : P.op.ne = 0 := by omega
    unfold PMean.action
    rw [h0]
    simp
  rw [if_pos hne]
  unfold applyAddAtCore
  obtain ⟨s1, e1, I1, k4, k5⟩ := setupAt_ok h en hg hps
  rw [M.wp_bind]
  refine M.wp_of_eq_ok e1 ?_
  rw [M.wp_bind]
  have hRs : (AtInReady P inv s1.base ↔ AtInReady P inv s.base) ∧ (AtOutReady P outv s1.base ↔ AtOutReady P outv s.base) := by
    unfold AtInReady AtOutReady
    rw [k4]
    exact ⟨Iff.rfl, Iff.rfl⟩
  have hR' : R → AtInReady P inv s1.base ∧ AtOutReady P outv s1.base ∧ Unlocked s1.base := by
    intro r
    obtain ⟨r1, r2, r3⟩ := hR r
    exact ⟨hRs.1.2 r1, hRs.2.2 r2, k5 r3⟩
  refine M.wp_mono (onP_wp (setupGen_wp h.gctx I1.g (R := R) (inv := .null) (sk := true) (by
      intro r i hi hl
      obtain ⟨r', v, b1, b2, b3, b4, _⟩ := (hR' r).1.1 i hi hl.1
      refine ⟨r', v, b1, ?_, b3, b4⟩
      match hvec : (P.op.inp i).vec with
      | .active => exact absurd ⟨hvec, rfl⟩ hl.2
      | .none => rw [hvec] at b2; cases b2
      | .vec u => rw [hvec] at b2; exact b2) (fun r => (hR' r).2.2))) ?_ ?_
  swap
  · rintro s' _ ⟨b, rfl, h1, j, h2⟩
    exact ⟨h1, (I1.gloop h2).good⟩
  rintro s' _ ⟨b, rfl, H⟩
  have I2 := I1.gloop H
  have hvs : b.vecs = s1.base.vecs := H.vecs
  have hpas : ∀ i < P.op.nin, (P.op.inp i).mode ≠ .weight → (P.op.inp i).vec ≠ .active → ∃ r v, (P.op.inp i).rid = some r ∧
      (P.op.inp i).vec = .vec v ∧ (s1.base.vecs v).valid = true ∧ (P.op.rstrs r).lSize ≤ (s1.base.vecs v).buf.len := by
    intro i hi hw ha
    obtain ⟨r, v, h1, h2, h3⟩ := H.ready i hi ⟨hw, fun hh => ha hh.1⟩
    refine ⟨r, v, h1, ?_, h3⟩
    match hvec : (P.op.inp i).vec with
    | .active => exact absurd hvec ha
    | .none => rw [hvec] at h2; cases h2
    | .vec u => rw [hvec] at h2; cases h2; rfl
  have hpre : APre P S (fun v => (b.vecs v).buf.val) b := by
    refine ⟨I2.g.full, I2.g.skip, I2.ev, I2.ofull, I2.oskip, I2.oadd, H.len, ?_⟩
    intro i hi hw ha
    obtain ⟨r, v, _, h2, _⟩ := hpas i hi hw ha
    have := (H.gath i hi ⟨hw, fun hh => ha hh.1⟩ v (by rw [h2]; rfl)).2
    rw [h2]
    rw [← hvs] at this
    exact this
  rw [M.wp_bind]
  refine M.wp_of_eq_ok (s' := { ({ s1 with base := b } : PSt K) with off := 0 }) (a := ()) rfl ?_
  rw [M.wp_bind]
  have hrid : ∀ a : OField K, ∀ r, a.rid = some r → a.r = r := by intro a r hr; unfold OField.r; rw [hr]; rfl
  refine M.wp_mono (elements_wp h hne (s := { s1 with base := b }) (vs := b.vecs) (inv := inv) (outv := outv) (R := R) hpre hen I2.d ?_) ?_ ?_
  · intro r
    obtain ⟨⟨r1, r1'⟩, r2, _⟩ := hR' r
    refine ⟨?_, ?_, ?_⟩
    · intro rX xv hx
      rw [hvs]; exact r1' rX xv hx
    · intro i hi hw ha
      obtain ⟨r', v, c1, c2, c3, _, c4⟩ := r1 i hi hw
      rw [hrid _ _ c1, hvs]
      exact ⟨v, by rw [ha] at c2; exact c2, c3, c4 ha⟩
    · intro o ho
      obtain ⟨r', v, c1, c2, c3, c4⟩ := r2 o ho
      unfold OutL
      rw [hrid _ _ c1, hvs]
      exact ⟨v, c2, c3, c4⟩
  swap
  · rintro s' _ ⟨h1, d', vs', off, rfl, a1, a2⟩
    exact ⟨h1, (I2.put a1 a2.adv off).good⟩
  rintro s' _ ⟨a1, d', vs', off, rfl, a2, a3, a4⟩
  have I3 := I2.put a2 a3.adv off
  obtain ⟨rd, e5, hrd⟩ := restoreGen_ok (op := P.op) (G := GathA P.op S) (sk := true) (inv := .null)
    (s := (PSt.put { s1 with base := b } d' vs' off).base) (fun i hi hw => I3.g.full i hi hw)
  refine M.wp_of_eq_ok (s' := { PSt.put { s1 with base := b } d' vs' off with
    base := { (PSt.put { s1 with base := b } d' vs' off).base with impl := { (PSt.put { s1 with base := b } d' vs' off).base.impl with rd := rd } } })
    (a := ()) (by unfold onP; rw [e5]) ?_
  have I4 : AInv P S b0 { PSt.put { s1 with base := b } d' vs' off with
    base := { (PSt.put { s1 with base := b } d' vs' off).base with impl := { (PSt.put { s1 with base := b } d' vs' off).base.impl with rd := rd } } } :=
    ⟨I3.done, I3.ev, I3.ofull, I3.oskip, I3.oadd, I3.d, I3.g.adv (Advances.refl _) rfl rfl rfl rfl⟩
  refine ⟨I4.good, fun hu _ => ?_, fun _ => ⟨hRs.1.1 ⟨?_, ?_⟩, hRs.2.1 ?_⟩, ?_, ?_⟩
  · have hU := k5 hu
    refine ⟨fun k => ?_, fun k => ?_⟩
    · show rd k = 0
      rw [hrd]
      show b.impl.rd k - _ = 0
      rw [H.rd, Nat.add_sub_cancel]
      exact hU.1 k
    · show b.impl.wr k = false
      rw [H.wr]; exact hU.2 k
  · intro i hi hw
    by_cases ha : (P.op.inp i).vec = .active
    · obtain ⟨v, c2, c3, c4⟩ := a1.2.1 i hi hw ha
      refine ⟨(P.op.inp i).r, v, (h.inp i hi hw).ok.2, by rw [ha]; exact c2, ?_, ?_, fun _ => ?_⟩
      · rw [← hvs]; exact c3
      · rw [← hvs]; exact c4.1
      · rw [← hvs]; exact c4
    · obtain ⟨r, v, c1, c2, c3, c4⟩ := hpas i hi hw ha
      exact ⟨r, v, c1, by rw [c2]; rfl, c3, c4, fun hh => absurd hh ha⟩
  · intro rX xv hx
    rw [← hvs]; exact a1.1 rX xv hx
  · intro o ho
    obtain ⟨v, c2, c3, c4⟩ := a1.2.2 o ho
    exact ⟨(P.op.out o).r, v, (h.out o ho).ok.2, c2, by rw [← hvs]; exact c3, by rw [← hvs]; exact c4⟩
  · show VStep P.op outv s.base.vecs vs'
    rw [← k4, ← hvs]; exact a3
  · intro ha v t
    have := a4 ha v t
    rw [hvs, k4] at this
    exact this

/-- Outputs that exist and have the right length; they need not hold valid data. -/
def AtOutLong (P : POper K) (outv : VPtr) (s : St K) : Prop :=
  ∀ o < P.op.nout, ∃ r v, (P.op.out o).rid = some r ∧ (P.op.out o).vec.ptr outv = .vec v ∧ FitsL (P.op.rstrs r) (s.vecs v).buf.len

theorem AtGood.adv {P : POper K} {S : PMean K} {b0 : Nat → PBas K} {s : PSt K} (hg : AtGood P S b0 s) {b : St K} (ha : Advances s.base.vecs b.vecs)
    (hi : b.impl = s.base.impl) : AtGood P S b0 { s with base := b } := by
  refine ⟨?_, ha.vz hg.2.1, hg.2.2⟩
  rcases hg.1 with hd | k2
  · exact Or.inl (by show b.impl.done = false; rw [hi]; exact hd)
  · refine Or.inr ⟨?_, ?_, ?_, ?_, ?_, k2.d, k2.g.adv ha ?_ ?_ ?_ ?_⟩
    · show b.impl.done = true; rw [hi]; exact k2.done
    · intro i; show _ → _ → b.impl.it.ev i = _; rw [hi]; exact k2.ev i
    · intro i; show _ → b.impl.ot.full i = _; rw [hi]; exact k2.ofull i
    · intro i; show _ → (b.impl.ot.skip i = true ↔ _); rw [hi]; exact k2.oskip i
    · intro i; show _ → (b.impl.ot.add i = true ↔ _); rw [hi]; exact k2.oadd i
    · show b.impl.it = _; rw [hi]
    · show b.impl.eIn = _; rw [hi]
    · show b.impl.eInOk = _; rw [hi]
    · show b.impl.states = _; rw [hi]

theorem PassiveSet.adv {P : POper K} {s t : St K} (h : PassiveSet P s) (ha : Advances s.vecs t.vecs) : PassiveSet P t := by
  intro i hi hw hv
  obtain ⟨v, h1, h2⟩ := h i hi hw hv
  refine ⟨v, h1, ?_⟩
  rcases (ha v).2 with h3 | h3
  · rw [h3]; exact h2
  · omega

theorem atApply_wp {P : POper K} {S : PMean K} {b0 : Nat → PBas K} (h : AtOK P S b0) {en : Env K} (hen : Exact en)
    {s : PSt K} (hg : AtGood P S b0 s) (hps : PassiveSet P s.base) {inv outv : VPtr} {R : Prop}
    (hR : R → AtInReady P inv s.base ∧ AtOutLong P outv s.base ∧ (s.base.impl.done = true → Unlocked s.base)) :
    M.wp R (applyAt P en inv outv) s (fun s' _ => AtGood P S b0 s' ∧
      ((s.base.impl.done = true → Unlocked s.base) → (s'.base.impl.done = true → Unlocked s'.base)) ∧
      (∀ v, (∀ o < P.op.nout, (P.op.out o).vec.ptr outv ≠ .vec v) → s'.base.vecs v = s.base.vecs v) ∧
      (AtApart P inv outv → ∀ v, (∃ o < P.op.nout, (P.op.out o).vec.ptr outv = .vec v) → ∀ t,
        s'.base.L v t = S.action P (zeroed P.op outv s.base.L) inv outv v t))
      (fun s' _ => ¬ R ∧ AtGood P S b0 s') := by
  unfold applyAt
  rw [M.wp_bind]
  refine M.wp_mono (onP_wp (zero_wp (op := P.op) (s := s.base) (outv := outv) (R := R) ?_)) ?_ ?_
  · intro r o ho hn
    obtain ⟨_, _, _, h2, _⟩ := (hR r).2.1 o ho
    rw [hn] at h2; cases h2
  swap
  · rintro _ _ ⟨_, _, hh⟩
    exact hh.elim
  rintro s1 _ ⟨b, rfl, a1, a2, a3, a4⟩
  have hL : b.L = zeroed P.op outv s.base.L := by
    funext v
    unfold zeroed St.L
    split
    · rename_i hh
      rw [(a4 v hh).2]
    · rename_i hh
      rw [a3 v (fun o ho hv => hh ⟨o, ho, hv⟩)]
  have hval : ∀ v, (s.base.vecs v).valid = true → (b.vecs v).valid = true := by
    intro v hv'
    by_cases hv : ∃ o < P.op.nout, (P.op.out o).vec.ptr outv = .vec v
    · exact (a4 v hv).1
    · rw [a3 v (fun o ho hh => hv ⟨o, ho, hh⟩)]; exact hv'
  refine M.wp_mono (addAt_wp h hen (hg.adv a2 a1) (hps.adv a2) (R := R) ?_) ?_ (fun _ _ hh => hh)
  · intro r
    obtain ⟨⟨r1, r1'⟩, r2, r3⟩ := hR r
    refine ⟨⟨?_, ?_⟩, ?_, ?_⟩
    · intro i hi hw
      obtain ⟨r', v, b1, b2, b3, b4, b5⟩ := r1 i hi hw
      refine ⟨r', v, b1, b2, hval v b3, ?_, ?_⟩
      · show _ ≤ ((b.vecs v).buf.len : Int)
        rw [(a2 v).1]; exact b4
      · show _ → FitsL _ (b.vecs v).buf.len
        rw [(a2 v).1]; exact b5
    · intro rX xv hx
      obtain ⟨b3, b4⟩ := r1' rX xv hx
      refine ⟨hval xv b3, ?_⟩
      show _ ≤ ((b.vecs xv).buf.len : Int)
      rw [(a2 xv).1]; exact b4
    · intro o ho
      obtain ⟨r', v, b1, b2, b3⟩ := r2 o ho
      refine ⟨r', v, b1, b2, (a4 v ⟨o, ho, b2⟩).1, ?_⟩
      show FitsL _ (b.vecs v).buf.len
      rw [(a2 v).1]; exact b3
    · show b.impl.done = true → Unlocked b
      unfold Unlocked at *; rw [a1]; exact r3
  · rintro s' _ ⟨b1, b2, b3, b4, b5⟩
    refine ⟨b1, ?_, fun v hv => (b4.other v hv).trans (a3 v hv), ?_⟩
    · have b2 : (b.impl.done = true → Unlocked b) → _ := b2
      unfold Unlocked at *; rw [a1] at b2; exact b2
    · intro ha v hv t
      rw [b5 ha v t]
      show b.L v t + S.action P b.L inv outv v t = _
      rw [hL]
      unfold zeroed
      rw [if_pos hv, zero_add]

theorem used_trans {a b c : PBas K} (h1 : Used a b) (h2 : Used b c) : Used a c := by
  induction h2 with
  | new => exact h1
  | apply _ he h ih => exact .apply ih he h
  | applyAdd _ he h ih => exact .applyAdd ih he h

theorem ReachAt.good {P : POper K} {S : PMean K} {b0 : Nat → PBas K} (h : AtOK P S b0) {fails : Prop} {s : PSt K}
    (hr : ReachAt P b0 fails s) : AtGood P S b0 s ∧ (¬ fails → s.base.impl.done = true → Unlocked s.base) := by
  induction hr with
  | start s hd hv hb => exact ⟨⟨Or.inl hd, hv, fun id => by rw [hb]; exact .new⟩, fun _ hh => by rw [hd] at hh; cases hh⟩
  | user _ ha ih => exact ⟨ih.1.adv ha rfl, fun hf hd => ih.2 hf hd⟩
  | bases _ hb ih =>
    obtain ⟨⟨i1, i2, i3⟩, i4⟩ := ih
    refine ⟨⟨?_, i2, fun id => used_trans (i3 id) (hb id)⟩, i4⟩
    rcases i1 with i1 | i1
    · exact Or.inl i1
    · refine Or.inr ⟨i1.done, i1.ev, i1.ofull, i1.oskip, i1.oadd, ?_, i1.g⟩
      exact ⟨i1.d.mx, i1.d.xe, i1.d.q, i1.d.wt, i1.d.w, i1.d.eb, fun id => used_trans (i3 id) (hb id)⟩
  | applyAdd _ he hp e ih =>
    have := M.wp_ok (addAt_wp h he ih.1 hp (R := False) (fun hh => hh.elim)) e
    exact ⟨this.1, fun hf => this.2.1 (ih.2 hf)⟩
  | apply _ he hp e ih =>
    have := M.wp_ok (atApply_wp h he ih.1 hp (R := False) (fun hh => hh.elim)) e
    exact ⟨this.1, fun hf => this.2.1 (ih.2 hf)⟩
  | applyAddErr hf _ he hp e ih =>
    exact ⟨(M.wp_err (addAt_wp h he ih.1 hp (R := False) (fun hh => hh.elim)) e).2, fun hn => absurd hf hn⟩
  | applyErr hf _ he hp e ih =>
    exact ⟨(M.wp_err (atApply_wp h he ih.1 hp (R := False) (fun hh => hh.elim)) e).2, fun hn => absurd hf hn⟩

/-- The action depends on the vectors read only. -/
theorem PMean.action_congr {P : POper K} (S : PMean K) {L L' : Nat → Nat → K} {inv : VPtr}
    (h : ∀ i < P.op.nin, (P.op.inp i).mode ≠ .weight → cont L ((P.op.inp i).vec.ptr inv) = cont L' ((P.op.inp i).vec.ptr inv))
    (hc : P.coords L = P.coords L') (outv : VPtr) (v t : Nat) : S.action P L inv outv v t = S.action P L' inv outv v t := by
  have hpt : S.point P L = S.point P L' := by
    funext e p d
    unfold PMean.point
    rw [hc]
  have hin : S.inArr P L inv = S.inArr P L' inv := by
    funext e i x
    unfold PMean.inArr
    split
    · rename_i hh
      unfold PMean.inVal
      rw [hpt]
      by_cases hw : (P.op.inp i).mode = .weight
      · simp only [hw]
      · simp only [h i hh.1 hw]
    · rfl
  have ho : S.outArr P L inv = S.outArr P L' inv := by
    unfold PMean.outArr
    rw [hin]
  unfold PMean.action PMean.elemAdds
  rw [hpt, ho]

/-! ## C56 -/

variable {P : POper K} {S : PMean K} {b0 : Nat → PBas K}

/-- After any history, failed calls included, a successful `CeedOperatorApplyAdd` of an operator at points adds to every
vector exactly the action of the operator: the sum over the elements of what the QFunction makes of the values at the
points of the element, however many points the elements have. The active input and the coordinates must not be written.
Vectors that are not outputs are left alone.
Partial: `AtOK` excludes some combinations of fields that the library accepts (see the witnesses). -/
theorem C56_apply_add_partial (h : AtOK P S b0) {s s' : PSt K} (hr : ReachAt P b0 True s) {en : Env K} (hen : Exact en)
    {inv outv : VPtr} (hp : PassiveSet P s.base) (ha : AtApart P inv outv) (e : applyAddAt P en inv outv s = .ok s' ()) :
    (∀ v t, s'.base.L v t = s.base.L v t + S.action P s.base.L inv outv v t) ∧
    ∀ v, (∀ o < P.op.nout, (P.op.out o).vec.ptr outv ≠ .vec v) → s'.base.vecs v = s.base.vecs v := by
  have := M.wp_ok (addAt_wp h hen (hr.good h).1 hp (R := False) (fun hh => hh.elim)) e
  exact ⟨this.2.2.2.2 ha, this.2.2.2.1.other⟩

/-- After any history, a successful `CeedOperatorApply` of an operator at points stores the action in the outputs, if no
vector is both read and written. Partial: as above. -/
theorem C56_apply_partial (h : AtOK P S b0) {s s' : PSt K} (hr : ReachAt P b0 True s) {en : Env K} (hen : Exact en)
    {inv outv : VPtr} (hp : PassiveSet P s.base) (hna : NoAlias P.op inv outv)
    (hx : ∀ rX xv, P.points = some (rX, xv) → ∀ o < P.op.nout, (P.op.out o).vec.ptr outv ≠ .vec xv)
    (e : applyAt P en inv outv s = .ok s' ()) :
    (∀ v, (∃ o < P.op.nout, (P.op.out o).vec.ptr outv = .vec v) → ∀ t, s'.base.L v t = S.action P s.base.L inv outv v t) ∧
    ∀ v, (∀ o < P.op.nout, (P.op.out o).vec.ptr outv ≠ .vec v) → s'.base.vecs v = s.base.vecs v := by
  have := M.wp_ok (atApply_wp h hen (hr.good h).1 hp (R := False) (fun hh => hh.elim)) e
  refine ⟨fun v hv t => ?_, this.2.2.1⟩
  have ha : AtApart P inv outv := by
    refine ⟨?_, hx⟩
    intro i hi hw hv o ho hh
    exact hna i hi o ho hw (by rw [hv, hh]; rfl)
  rw [this.2.2.2 ha v hv t]
  refine S.action_congr (fun i hi hw => ?_) ?_ outv v t
  · match hp : (P.op.inp i).vec.ptr inv with
    | .null => rfl
    | .none => rfl
    | .vec u =>
      show zeroed P.op outv s.base.L u = s.base.L u
      unfold zeroed
      rw [if_neg]
      rintro ⟨o, ho, hh⟩
      exact hna i hi o ho hw (by rw [hp, hh])
  · unfold POper.coords
    match hp : P.points with
    | none => rfl
    | some (rX, xv) =>
      show zeroed P.op outv s.base.L xv = s.base.L xv
      unfold zeroed
      rw [if_neg]
      rintro ⟨o, ho, hh⟩
      exact hx rX xv hp o ho hh

/-- After a history without failing calls, `CeedOperatorApplyAdd` of an operator at points succeeds, without undefined
behaviour, exactly if (for a nonempty mesh) the vectors read, the coordinates included, hold data and are long enough, the
vectors written hold data, and active input and outputs have exactly the length of their mesh restrictions.
Partial: as above. -/
theorem C56_apply_add_succeeds_partial (h : AtOK P S b0) {s : PSt K} (hr : ReachAt P b0 False s) {en : Env K} (hen : Exact en)
    {inv outv : VPtr} (hp : PassiveSet P s.base) (hne : 0 < P.op.ne) :
    (∃ s', applyAddAt P en inv outv s = .ok s' ()) ↔ AtInReady P inv s.base ∧ AtOutReady P outv s.base := by
  have hg := hr.good h
  constructor
  · rintro ⟨s', e⟩
    exact (M.wp_ok (addAt_wp h hen hg.1 hp (R := False) (fun hh => hh.elim)) e).2.2.1 hne
  · intro hrdy
    have := addAt_wp h hen hg.1 hp (inv := inv) (outv := outv) (R := True)
      (fun _ => ⟨hrdy.1, hrdy.2, hg.2 (fun hh => hh)⟩)
    cases e : applyAddAt P en inv outv s with
    | ok s' a => exact ⟨s', rfl⟩
    | err s' c => exact absurd trivial (M.wp_err this e).1
    | ub => exact absurd trivial (M.wp_ub this e)

/-- After a history without failing calls, `CeedOperatorApply` of an operator at points succeeds if the vectors it reads
hold data and all vectors have the right length. Partial: as above. -/
theorem C56_apply_succeeds_partial (h : AtOK P S b0) {s : PSt K} (hr : ReachAt P b0 False s) {en : Env K} (hen : Exact en)
    {inv outv : VPtr} (hp : PassiveSet P s.base) (hi : AtInReady P inv s.base) (ho : AtOutLong P outv s.base) :
    ∃ s', applyAt P en inv outv s = .ok s' () := by
  have hg := hr.good h
  have := atApply_wp h hen hg.1 hp (inv := inv) (outv := outv) (R := True)
    (fun _ => ⟨hi, ho, hg.2 (fun hh => hh)⟩)
  cases e : applyAt P en inv outv s with
  | ok s' a => exact ⟨s', rfl⟩
  | err s' c => exact absurd trivial (M.wp_err this e).1
  | ub => exact absurd trivial (M.wp_ub this e)

end Operator
end Verif
