import Verif.Gpu.OperOut
import Verif.Operator.Props
import Verif.Gpu.Props
import Verif.Gpu.BasisProps

/-!
# Operator application on a device: properties

C66: a successful application adds exactly the action of the operator, on every schedule of all launches and after every
history; it succeeds whenever the vectors hold data and are long enough.
-/

namespace Verif.Gpu

open Finset
open Verif.Restriction (TMode RData Rstr Orient create createStrided offsetData StridesInRange OffsetsInRange Variant)
open Verif.Basis (EMode)
open Verif.Operator (VPtr FVec LVec isBasisMode OField Oper Meaning Advances cont action_congr NoAlias zeroed)

variable {α : Type} [CommRing α] {dv : Device} {op : GOper α} {S : Meaning α} {D : Dev α} {inv outv : VPtr}

/-! ## States between calls (helper lemmas) -/

/-- After setup, between calls: nothing is locked or borrowed. -/
structure Rest (op : GOper α) (S : Meaning α) (s : GSt α) : Prop where
  fix : Fix op S s
  wr : ∀ k, k ≠ .work → (s.ev k).wr = false
  rd : ∀ k, k ≠ .work → (s.ev k).rd = 0
  borO : ∀ o, (s.qOut o).bor = none
  borI : ∀ j < op.nin, (s.qIn j).bor = none

/-- States between calls. -/
structure GGood (op : GOper α) (S : Meaning α) (s : GSt α) : Prop where
  v0 : ∀ v, (s.vecs v).state = 0 → (s.vecs v).valid = false
  rest : s.done = true → Rest op S s

theorem setup_ok (h : GOK dv op S) (hD : D.Real dv) (hne : 0 < op.ne) {s : GSt α} (hg : GGood op S s) :
    Tr (setupG op D) s fun s' _ => s'.done = true ∧ Rest op S s' ∧ s'.vecs = s.vecs := by
  refine .bind (.get ?_)
  by_cases hd : s.done = true
  · rw [if_pos hd]
    exact .pure ⟨hd, hg.rest hd, rfl⟩
  rw [if_neg hd]
  refine .bind (Tr.mono (Tr.loop (fun i s' => s'.vecs = s.vecs ∧ ∀ j < i, (s'.qIn j).bor = none ∧
      ((op.inp j).mode ≠ .weight → (s'.qIn j).buf.len = op.ne * op.Q * (op.inp j).size) ∧
      ((op.inp j).mode = .weight → (s'.qIn j).valid = true ∧ (s'.qIn j).buf.len = op.ne * op.Q ∧
        ∀ e < op.ne, ∀ q < op.Q, (s'.qIn j).buf.val (e * op.Q + q) = S.w j q))
    ⟨rfl, fun j hj => absurd hj (by omega)⟩ ?_) ?_)
  · rintro i hi s1 ⟨hv, hall⟩
    unfold setupQG
    by_cases hw : (op.inp i).mode = .weight
    · rw [if_pos hw]
      have := h.inp i hi
      simp only [GInOK, hw] at this
      obtain ⟨-, -, -, b, hb, hQ, hwt⟩ := this
      obtain ⟨junk, hout⟩ := hD.basis s1.tick b op.ne .noTranspose .weight none ⟨op.ne * op.Q, fun _ => 0⟩
      obtain ⟨v', e1, e2, t, e3, e4⟩ := hout.of_launches (hwt junk op.ne ⟨op.ne * op.Q, fun _ => 0⟩ hne (by rw [hQ]))
      refine .bind (.ptr hb (.bind (.launch e1 (.mod ⟨hv, fun j hj => ?_⟩))))
      by_cases hji : j = i
      · subst hji
        simp only [Function.update_self]
        refine ⟨by trivial, fun hc => absurd hw hc, fun _ => ⟨by trivial, e2, fun e he q hq => ?_⟩⟩
        rw [e3, ← hQ]
        exact e4 e he q (by omega)
      · simp only [Function.update_of_ne hji]
        exact hall j (by omega)
    · rw [if_neg hw]
      refine .mod ⟨hv, fun j hj => ?_⟩
      by_cases hji : j = i
      · subst hji
        simp only [Function.update_self]
        exact ⟨by trivial, fun _ => by trivial, fun hc => absurd hc hw⟩
      · simp only [Function.update_of_ne hji]
        exact hall j (by omega)
  · rintro s1 _ ⟨hv, hall⟩
    refine .mod ⟨rfl, ⟨⟨rfl, fun i => rfl, fun o => rfl, fun i hi hw => (hall i hi).2.1 hw, fun o => rfl, fun i hi hw => ?_,
      fun f hf hm hl v hvv => ⟨Nat.zero_le _, fun h0 h1 => absurd h0.symm h1⟩⟩, fun k hk => ?_, fun k hk => ?_,
      fun o => rfl, fun j hj => (hall j hj).1⟩, hv⟩
    · obtain ⟨b1, -, b2⟩ := hall i hi
      obtain ⟨b3, b4, b5⟩ := b2 hw
      exact ⟨b3, b1, b4, b5⟩
    · cases k with
      | work => exact absurd rfl hk
      | inp i => rfl
      | out o => rfl
    · cases k with
      | work => exact absurd rfl hk
      | inp i => rfl
      | out o => rfl

/-- `CeedOperatorApplyAdd` from any state between calls. -/
theorem applyAdd_ok (h : GOK dv op S) (hD : D.Real dv) (wk : Work α) {s : GSt α} (hg : GGood op S s)
    (hi : InReadyG op inv s) (ho : OutReadyG op outv s) :
    Tr (applyAddG op D wk inv outv) s fun s' _ => GGood op S s' ∧ Advances s.vecs s'.vecs ∧
      (∀ v, (∀ o < op.nout, (op.out o).vec.ptr outv ≠ .vec v) → s'.vecs v = s.vecs v) ∧
      ∀ v t, s'.L v t = s.L v t + S.action op.host s.L inv outv v t := by
  unfold applyAddG
  by_cases hne : 0 < op.ne
  swap
  · rw [if_neg hne]
    refine .pure ⟨hg, Advances.refl _, fun _ _ => rfl, fun v t => ?_⟩
    have : S.action op.host s.L inv outv v t = 0 := by
      unfold Meaning.action
      refine sum_eq_zero fun o ho => ?_
      obtain ⟨⟨r, hr, -, hDne, -⟩, -⟩ := h.outF (mem_range.1 ho)
      have h0 : (S.dat (op.host.out o)).ne = 0 := by
        rw [show S.dat (op.host.out o) = S.D r from dat_some S hr]; omega
      unfold Meaning.adds
      simp only [h0, range_zero, sum_empty, ite_self]
    rw [this, add_zero]
  rw [if_pos hne]
  refine .bind (Tr.mono (setup_ok h hD hne hg) ?_)
  rintro s1 _ ⟨hd1, hr1, hv1⟩
  refine .bind (.get (.bind (.mod ?_)))
  set s2 : GSt α := { s1 with ev := Function.update s1.ev EKey.work
                                      (EVec.mk wk.valid 0 false (Buf.mk (s1.tabs.maxLen + wk.extra) wk.val)) } with hs2
  have hev : ∀ k, k ≠ .work → s2.ev k = s1.ev k := fun k hk => Function.update_of_ne hk _ _
  have hwork : s2.ev .work = ⟨wk.valid, 0, false, ⟨s1.tabs.maxLen + wk.extra, wk.val⟩⟩ := by
    simp only [hs2, Function.update_self]
  have hf2 : Fix op S s2 := by
    refine ⟨hr1.fix.tabs, fun i => ?_, fun o => ?_, hr1.fix.qInLen, hr1.fix.qOutLen, hr1.fix.wts,
      hr1.fix.cachedOf rfl rfl fun f => ?_⟩
    · rw [hev _ (by simp)]; exact hr1.fix.evIn i
    · rw [hev _ (by simp)]; exact hr1.fix.evOut o
    · rw [hev _ (by simp)]; exact ⟨rfl, rfl⟩
  have hin : InSt op S inv s2.vecs 0 s2 := by
    refine ⟨hf2, rfl, hd1, ?_, fun k => ?_, fun k => ?_, hr1.borO, fun j hj => absurd hj (by omega),
      fun f hf _ => hr1.borI f hf, fun j hj => absurd hj (by omega)⟩
    · rw [hwork, hr1.fix.tabs]
      exact Nat.le_add_right _ _
    · by_cases hk : k = .work
      · rw [hk, hwork]
      · rw [hev k hk]; exact hr1.wr k hk
    · rw [range_zero, sum_empty]
      by_cases hk : k = .work
      · rw [hk, hwork]
      · rw [hev k hk]; exact hr1.rd k hk
  have hv2 : s2.vecs = s.vecs := hv1
  have hi2 : InReadyG op inv s2 := by
    unfold InReadyG; rw [hv2]; exact hi
  refine .bind (Tr.mono (inputs_all h hD hne hin hi2 (by rw [hv2]; exact hg.v0)) ?_)
  intro s3 _ hs3
  refine .bind (Tr.mono (Tr.loop (fun i => MidSt op S inv s2.vecs i 0 0) (mid_start hs3)
    fun i hi s h1 => borrow_step h hi h1) ?_)
  intro s4 _ hs4
  refine .bind (Tr.mono (qf_step h hne hs4) ?_)
  intro s5 _ hs5
  refine .bind (Tr.mono (Tr.loop (fun i => MidSt op S inv s2.vecs op.nout op.nout i) hs5
    fun i hi s h1 => restore_step h hi h1) ?_)
  intro s6 _ hs6
  refine Tr.mono (outputs_all h hD hne (out_start (outv := outv) hs6) (by rw [hv2]; exact ho)) ?_
  intro s7 _ hs7
  have hb := hs7.base
  rw [hv2] at hb
  refine ⟨⟨hb.adv.vz hg.v0, fun _ => ⟨hb.fix, fun k _ => ?_, fun k _ => hb.rd k, fun o => ?_, hb.borI⟩⟩, hb.adv,
    hb.keep, fun v t => ?_⟩
  · cases k with
    | work => exact hb.wrI _ (by simp)
    | inp i => exact hb.wrI _ (by simp)
    | out o =>
      rw [hb.wrO]
      simp only [decide_eq_false_iff_not]
      omega
  · rw [hb.borO, if_neg]
    omega
  · have := out_end hs7 v t
    rw [hv2] at this
    exact this

theorem zeroLoop_ok {s : GSt α} (ho : OutLongG op outv s) :
    Tr (M.loop op.nout (fun o => zeroVecG ((op.out o).vec.ptr outv))) s fun s' _ =>
      (∃ V, s' = { s with vecs := V }) ∧ Advances s.vecs s'.vecs ∧
      (∀ v, (∀ o < op.nout, (op.out o).vec.ptr outv ≠ .vec v) → s'.vecs v = s.vecs v) ∧
      ∀ v, (∃ o < op.nout, (op.out o).vec.ptr outv = .vec v) → (s'.vecs v).valid = true ∧
        (s'.vecs v).buf = ⟨(s.vecs v).buf.len, fun _ => 0⟩ := by
  refine Tr.loop (fun j s' => (∃ V, s' = { s with vecs := V }) ∧ Advances s.vecs s'.vecs ∧
      (∀ v, (∀ o < op.nout, (op.out o).vec.ptr outv ≠ .vec v) → s'.vecs v = s.vecs v) ∧
      ∀ v, (∃ o < j, (op.out o).vec.ptr outv = .vec v) → (s'.vecs v).valid = true ∧
        (s'.vecs v).buf = ⟨(s.vecs v).buf.len, fun _ => 0⟩) ?_ ?_
  · exact ⟨⟨s.vecs, rfl⟩, Advances.refl _, fun _ _ => rfl, fun v ⟨o, h1, _⟩ => absurd h1 (by omega)⟩
  · rintro o hoo s' ⟨⟨V, rfl⟩, a2, a3, a4⟩
    obtain ⟨r, u, -, hp, -⟩ := ho o hoo
    refine ⟨_, (), by rw [hp]; rfl, ⟨⟨_, rfl⟩, ?_, fun v hv => ?_, fun v hv => ?_⟩⟩
    · exact a2.trans (Advances.update rfl (by simp))
    · have : v ≠ u := by
        rintro rfl
        exact hv o hoo hp
      show Function.update V u _ v = _
      rw [Function.update_of_ne this]
      exact a3 v hv
    · show (Function.update V u _ v).valid = true ∧ (Function.update V u _ v).buf = _
      by_cases hvu : v = u
      · subst hvu
        rw [Function.update_self]
        refine ⟨rfl, ?_⟩
        have := (a2 v).1
        simp only at this ⊢
        rw [this]
      · rw [Function.update_of_ne hvu]
        obtain ⟨o', h1, h2⟩ := hv
        refine a4 v ⟨o', ?_, h2⟩
        rcases Nat.lt_or_ge o' o with hh | hh
        · exact hh
        · obtain rfl : o' = o := by omega
          rw [hp] at h2
          cases h2
          exact absurd rfl hvu

theorem GGood.adv {s : GSt α} (hg : GGood op S s) {V : Nat → LVec α} (ha : Advances s.vecs V) :
    GGood op S { s with vecs := V } := by
  refine ⟨ha.vz hg.v0, fun hd => ?_⟩
  have hr := hg.rest hd
  refine ⟨⟨hr.fix.tabs, hr.fix.evIn, hr.fix.evOut, hr.fix.qInLen, hr.fix.qOutLen, hr.fix.wts,
    fun f hf hm hl v hv => ?_⟩, hr.wr, hr.rd, hr.borO, hr.borI⟩
  obtain ⟨c1, c2⟩ := hr.fix.cached f hf hm hl v hv
  show s.states f ≤ (V v).state ∧ (s.states f = (V v).state → (V v).state ≠ 0 → (s.ev (.inp f)).valid = true ∧
    IsGatherG (S.dat (op.inp f).host) (V v).buf.val (s.ev (.inp f)).buf.val)
  rcases (ha v).2 with e | e
  · rw [e]; exact ⟨c1, c2⟩
  · exact ⟨by omega, fun hc => by omega⟩

/-- `CeedOperatorApply` from any state between calls. -/
theorem apply_ok (h : GOK dv op S) (hD : D.Real dv) (wk : Work α) {s : GSt α} (hg : GGood op S s)
    (hi : InReadyG op inv s) (ho : OutLongG op outv s) :
    Tr (applyG op D wk inv outv) s fun s' _ => GGood op S s' ∧ Advances s.vecs s'.vecs ∧
      (∀ v, (∀ o < op.nout, (op.out o).vec.ptr outv ≠ .vec v) → s'.vecs v = s.vecs v) ∧
      ∀ v, (∃ o < op.nout, (op.out o).vec.ptr outv = .vec v) → ∀ t,
        s'.L v t = S.action op.host (zeroed op.host outv s.L) inv outv v t := by
  refine .bind (Tr.mono (zeroLoop_ok ho) ?_)
  rintro s1 _ ⟨⟨V, rfl⟩, a2, a3, a4⟩
  have hL : GSt.L { s with vecs := V } = zeroed op.host outv s.L := by
    funext v
    unfold zeroed
    by_cases hv : ∃ o < op.nout, (op.out o).vec.ptr outv = .vec v
    · rw [if_pos (show ∃ o < op.host.nout, (op.host.out o).vec.ptr outv = .vec v from hv)]
      show (V v).buf.val = _
      have e := (a4 v hv).2
      simp only at e
      rw [e]
    · rw [if_neg (show ¬ ∃ o < op.host.nout, (op.host.out o).vec.ptr outv = .vec v from hv)]
      show (V v).buf.val = _
      have := a3 v (fun o ho hh => hv ⟨o, ho, hh⟩)
      simp only at this
      rw [this]; rfl
  refine Tr.mono (applyAdd_ok h hD wk (hg.adv a2) (inv := inv) (outv := outv) ?_ ?_) ?_
  · intro i hi' hw
    obtain ⟨r', v, b1, b2, b3, b4⟩ := hi i hi' hw
    refine ⟨r', v, b1, b2, ?_, by rw [(a2 v).1]; exact b4⟩
    by_cases hv : ∃ o < op.nout, (op.out o).vec.ptr outv = .vec v
    · exact (a4 v hv).1
    · rw [a3 v (fun o ho hh => hv ⟨o, ho, hh⟩)]; exact b3
  · intro o ho'
    obtain ⟨r', v, b1, b2, b3⟩ := ho o ho'
    exact ⟨r', v, b1, b2, (a4 v ⟨o, ho', b2⟩).1, by rw [(a2 v).1]; exact b3⟩
  · rintro s' _ ⟨b1, b2, b3, b4⟩
    refine ⟨b1, a2.trans b2, fun v hv => (b3 v hv).trans (a3 v hv), fun v hv t => ?_⟩
    rw [b4 v t, hL]
    have : zeroed op.host outv s.L v t = 0 := by
      unfold zeroed
      rw [if_pos (show ∃ o < op.host.nout, (op.host.out o).vec.ptr outv = .vec v from hv)]
    rw [this, zero_add]

/-- States of histories satisfy the invariant. -/
theorem GReach.good (h : GOK dv op S) (hD : D.Real dv) {s : GSt α} (hr : GReach op D s) : GGood op S s := by
  induction hr with
  | start s hd hv => exact ⟨hv, fun hc => by rw [hd] at hc; cases hc⟩
  | user _ ha ih => exact ih.adv ha
  | @applyAdd s s' wk inv outv _ hi ho e ih =>
    obtain ⟨s1, _, e1, h1⟩ := applyAdd_ok h hD wk ih hi ho
    rw [e] at e1
    cases e1
    exact h1.1
  | @apply s s' wk inv outv _ hi ho e ih =>
    obtain ⟨s1, _, e1, h1⟩ := apply_ok h hD wk ih hi ho
    rw [e] at e1
    cases e1
    exact h1.1

/-! ## C66 -/

/-- After any history, whatever the schedules of all launches, and whatever the work vector handed out contains,
`CeedOperatorApplyAdd` succeeds if the vectors it reads and writes hold data and are long enough; it adds to every vector
exactly the action of the operator on the current contents of the vectors, and leaves vectors that are not outputs
alone. -/
theorem C66_apply_add_partial (h : GOK dv op S) (hD : D.Real dv) {s : GSt α} (hr : GReach op D s) (wk : Work α)
    (hi : InReadyG op inv s) (ho : OutReadyG op outv s) :
    ∃ s', applyAddG op D wk inv outv s = .ok s' () ∧
      (∀ v t, s'.L v t = s.L v t + S.action op.host s.L inv outv v t) ∧
      ∀ v, (∀ o < op.nout, (op.out o).vec.ptr outv ≠ .vec v) → s'.vecs v = s.vecs v := by
  obtain ⟨s', _, e, -, -, h1, h2⟩ := applyAdd_ok h hD wk (hr.good h hD) hi ho
  exact ⟨s', e, h2, h1⟩

/-- `CeedOperatorApply` succeeds if moreover the outputs are only long enough, and stores the action in them, if no vector
is both read and written. -/
theorem C66_apply_partial (h : GOK dv op S) (hD : D.Real dv) {s : GSt α} (hr : GReach op D s) (wk : Work α)
    (hna : NoAlias op.host inv outv) (hi : InReadyG op inv s) (ho : OutLongG op outv s) :
    ∃ s', applyG op D wk inv outv s = .ok s' () ∧
      (∀ v, (∃ o < op.nout, (op.out o).vec.ptr outv = .vec v) → ∀ t, s'.L v t = S.action op.host s.L inv outv v t) ∧
      ∀ v, (∀ o < op.nout, (op.out o).vec.ptr outv ≠ .vec v) → s'.vecs v = s.vecs v := by
  obtain ⟨s', _, e, -, -, h1, h2⟩ := apply_ok h hD wk (hr.good h hD) hi ho
  refine ⟨s', e, fun v hv t => ?_, h1⟩
  rw [h2 v hv t]
  refine action_congr (fun i hi hw => ?_) outv v t
  match hp : (op.host.inp i).vec.ptr inv with
  | .null => rfl
  | .none => rfl
  | .vec u =>
    show zeroed op.host outv s.L u = s.L u
    unfold zeroed
    rw [if_neg]
    rintro ⟨o, ho, hh⟩
    exact hna i hi o ho hw (by rw [hp, hh])

/-- In general `CeedOperatorApply` acts on the vectors with the outputs set to zero. -/
theorem C66_apply_alias_partial (h : GOK dv op S) (hD : D.Real dv) {s : GSt α} (hr : GReach op D s) (wk : Work α)
    (hi : InReadyG op inv s) (ho : OutLongG op outv s) :
    ∃ s', applyG op D wk inv outv s = .ok s' () ∧
      ∀ v, (∃ o < op.nout, (op.out o).vec.ptr outv = .vec v) → ∀ t,
        s'.L v t = S.action op.host (zeroed op.host outv s.L) inv outv v t := by
  obtain ⟨s', _, e, -, -, -, h2⟩ := apply_ok h hD wk (hr.good h hD) hi ho
  exact ⟨s', e, h2⟩

/-- Neither the schedules, nor what happened before, nor the work vectors matter: from any two histories of two devices
ending with the same contents, the results are the same. -/
theorem C66_schedule_partial (h : GOK dv op S) {D' : Dev α} (hD : D.Real dv) (hD' : D'.Real dv) {s f s' f' : GSt α}
    (hr : GReach op D s) (hf : GReach op D' f) {wk wk' : Work α} (hi : InReadyG op inv s) (ho : OutReadyG op outv s)
    (hi' : InReadyG op inv f) (ho' : OutReadyG op outv f) (hL : s.L = f.L)
    (e : applyAddG op D wk inv outv s = .ok s' ()) (e' : applyAddG op D' wk' inv outv f = .ok f' ()) : s'.L = f'.L := by
  obtain ⟨s1, e1, h1, -⟩ := C66_apply_add_partial h hD hr wk hi ho
  obtain ⟨f1, e2, h2, -⟩ := C66_apply_add_partial h hD' hf wk' hi' ho'
  rw [e] at e1
  rw [e'] at e2
  cases e1
  cases e2
  funext v t
  rw [h1, h2, hL]

/-- The device agrees with the reference backend of the host: the same operator, set correctly on both, adds the same to
the same contents. -/
theorem C66_reference_partial (h : GOK dv op S) (hh : Operator.OpOK op.host S) (hD : D.Real dv) {s s' : GSt α}
    {f f' : Operator.St α} (hr : GReach op D s) (hf : Operator.Reach op.host True f) {wk : Work α}
    {junk : Nat → Nat → α} (hi : InReadyG op inv s) (ho : OutReadyG op outv s) (hL : s.L = f.L)
    (e : applyAddG op D wk inv outv s = .ok s' ()) (e' : Operator.applyAdd op.host junk inv outv f = .ok f' ()) :
    s'.L = f'.L := by
  obtain ⟨s1, e1, h1, -⟩ := C66_apply_add_partial h hD hr wk hi ho
  rw [e] at e1
  cases e1
  funext v t
  rw [h1, (Operator.C37_apply_add hh hf e').1, hL]

/-! ## Devices and objects to which this applies -/

theorem runs_end {G B : Nat} {c₀ : Cfg α} {Q : Vals α → Prop} (h : Runs G B c₀ Q) : ∃ c, Reach G B c₀ c ∧ Final G B c := by
  by_contra hc
  push Not at hc
  have step : ∀ c : {c : Cfg α // Reach G B c₀ c}, ∃ c' : {c : Cfg α // Reach G B c₀ c}, Step G B c.1 c'.1 := by
    rintro ⟨c, hr⟩
    rcases h.progress c hr with hf | ⟨c', hs⟩
    · exact absurd hf (hc c hr)
    · exact ⟨⟨c', .step hr hs⟩, hs⟩
  choose nxt hn using step
  refine h.ends ⟨fun n => (Nat.rec ⟨c₀, .start⟩ (fun _ c => nxt c) n : {c : Cfg α // Reach G B c₀ c}).1, rfl, fun n => ?_⟩
  exact hn _

theorem outcome_exists (r : Res (Launch α)) (v : Buf α) : ∃ y, Outcome r v y := by
  classical
  by_cases he : ∃ e, r = .err e
  · obtain ⟨e, he⟩ := he
    exact ⟨.err e, he⟩
  · by_cases hl : Launches r (fun _ => True)
    · obtain ⟨L, e, hR⟩ := hl
      obtain ⟨c, h1, h2⟩ := runs_end hR
      exact ⟨.ok ⟨v.len, c.mem.val .v⟩, L, c, e, h1, h2, rfl⟩
    · exact ⟨.ub, he, hl⟩

/-- Every device has executions: there are outcomes of all launches. -/
theorem C66_devices (α : Type) [CommRing α] (dv : Device) : ∃ D : Dev α, D.Real dv := by
  choose y hy using fun (r : Res (Launch α)) (v : Buf α) => outcome_exists r v
  refine ⟨⟨fun _ x tm u v => y (applyCuda x .plain tm u v) v, fun _ x add ne tm em u v =>
    if add then y (applyAddDev dv (fun _ _ => 0) x ne tm em u v) v else y (applyDev dv (fun _ _ => 0) x ne tm em u v) v⟩,
    fun _ _ _ _ _ => hy _ _, fun _ _ _ _ _ _ _ => ⟨fun _ _ => 0, ?_⟩, fun _ _ _ _ _ _ _ => ⟨fun _ _ => 0, ?_⟩⟩
  · exact hy _ _
  · exact hy _ _

/-- The length of E-vectors and L-vectors of a restriction made on a device. -/
theorem MadeG.sizes {var : Variant} {x : CRstr} {lSize : Int} {R : RData α} (hx : MadeG var x lSize R) :
    x.base.eSize = R.ne * R.es * R.nc ∧ x.base.lSize = lSize := by
  cases hx with
  | @offset det mt junk ne es nc cs _ offsets o r _ h hc hin =>
    have ha := offsetArgs h
    obtain ⟨hb, -, -⟩ := createCuda_offset (α := α) ha hc hin
    rw [hb, ha.eSize, ha.lSz]
    exact ⟨rfl, rfl⟩
  | @strided det mt junk ne es nc _ s r _ h hc hin =>
    obtain ⟨hes, hnc, hl, h1, h2, h3, h4, h5, h6, h7⟩ := createStrided_inv h
    obtain rfl := createCuda_strided h1 hc
    exact ⟨h6, h5⟩

/-- Restrictions made on a device are inputs of operators (C61). -/
theorem C66_restriction_in {x : CRstr} {lSize : Int} {R : RData α} (hx : MadeG .plain x lSize R) : GatherBy x R := by
  obtain ⟨h1, h2⟩ := hx.sizes
  refine ⟨h1, fun u v hu hv => ?_⟩
  obtain ⟨L, e, -, hr⟩ := C61_gather hx (u := u) (v := v) (by rw [← h2]; exact hu) hv
  exact ⟨L, e, hr.mono fun s hs => hs.1⟩

/-- Restrictions with offsets are outputs of operators of the default backends (C61). -/
theorem C66_restriction_out {mt : MemType} {junk : Nat → Int} {ne es nc : Nat} {cs lSize : Int} {offsets : Buf Int}
    {o : Orient} {r : Rstr} {x : CRstr} (h : create false ne es nc cs lSize offsets o = .ok r)
    (hc : createCuda false mt junk r = .ok x) (hin : OffsetsInRange ne es nc cs lSize offsets) :
    ScatterBy x (offsetData ne es nc cs offsets o .plain : RData α) := by
  have h2 := (MadeG.sizes (α := α) (MadeG.offset (var := .plain) h hc hin)).2
  intro u v hu hv
  obtain ⟨L, e, -, hr⟩ := C61_scatter_atomic h hc hin .plain (u := u) (v := v) hu (by rw [← h2]; exact hv)
  exact ⟨L, e, hr.mono fun s hs => hs.1⟩

/-- So are those of the deterministic backends, if components do not overlap (C61). -/
theorem C66_restriction_out_deterministic_partial {mt : MemType} {junk : Nat → Int} {ne es nc : Nat} {cs lSize : Int}
    {offsets : Buf Int} {o : Orient} {r : Rstr} {x : CRstr}
    (h : create false ne es nc cs lSize offsets o = .ok r) (hc : createCuda true mt junk r = .ok x)
    (hin : OffsetsInRange ne es nc cs lSize offsets) (hno : NoOverlap ne es nc cs offsets) :
    ScatterBy x (offsetData ne es nc cs offsets o .plain : RData α) := by
  have h2 := (MadeG.sizes (α := α) (MadeG.offset (var := .plain) h hc hin)).2
  intro u v hu hv
  obtain ⟨L, e, -, hr⟩ := C61_scatter_deterministic_partial h hc hin hno .plain (u := u) (v := v) hu (by rw [← h2]; exact hv)
  exact ⟨L, e, hr.mono fun s hs => hs.1⟩

/-- And strided restrictions whose nodes do not overlap (C61); those with backend strides can be read and written in
place. -/
theorem C66_restriction_out_strided_partial {det : Bool} {mt : MemType} {junk : Nat → Int} {ne es nc : Nat} {lSize : Int}
    {s : Int × Int × Int} {r : Rstr} {x : CRstr} (h : createStrided ne es nc lSize s = .ok r)
    (hc : createCuda det mt junk r = .ok x)
    (hin : s = (0, 0, 0) ∨ StridesInRange ne es nc lSize s ∧ StridesApart ne es nc s) :
    ScatterBy x (stridedDataG ne es nc s : RData α) ∧
      (x.backendStrided = true → DirectBy x (stridedDataG ne es nc s : RData α)) := by
  have hm := MadeG.strided (α := α) (var := .plain) h hc (hin.imp_right And.left)
  obtain ⟨h1, h2⟩ := hm.sizes
  refine ⟨fun u v hu hv => ?_, fun hb => ?_⟩
  · obtain ⟨L, e, -, hr⟩ := C61_scatter_strided_partial h hc hin .plain (u := u) (v := v) hu (by rw [← h2]; exact hv)
    exact ⟨L, e, hr.mono fun s hs => hs.1⟩
  · obtain ⟨hes, hnc, hl, g1, g2, g3, g4, g5, g6, g7⟩ := createStrided_inv h
    obtain rfl := createCuda_strided g1 hc
    have hs : s = (0, 0, 0) := by
      have := (of_decide_eq_true hb).2
      rw [g7] at this
      exact Option.some.inj this
    refine ⟨by rw [h2]; exact hl, fun u e he k hk n hn => ?_⟩
    have e1 : ∀ e m k, (stridedDataG ne es nc s : RData α).lidx e m k = gPos ne es e k m := fun e m k => if_pos hs
    unfold RData.row
    simp only [e1]
    exact (row_id (α := α) hn fun m => u (gPos ne es e k m)).symm

/-- Bases made on a device can evaluate weights (C62). -/
theorem C66_weights_partial {x : DBas α} {i1 g1 w : Buf α} (hx : DevTensorBasis x i1 g1 (some w)) (h3 : x.bas.dim ≤ 3)
    (hB : x.bas.Q1 * (if x.bas.dim ≥ 2 then x.bas.Q1 else 1) ≤ dv.maxThreads) :
    WeightByG dv x (fun q => ∏ d ∈ range x.bas.dim, w.val (Basis.coord x.bas.Q1 d q)) := by
  intro junk ne v hne hv
  obtain ⟨L, e, hr⟩ := C62_weights_partial hx h3 hB junk hne none hv
  exact ⟨L, e, hr.mono fun s hs => hs.1⟩

end Verif.Gpu
