import Verif.Gpu.AsmQFCore
import Verif.Gpu.AsmProps
import Verif.Gpu.AsmDiagProps

/-!
# C73: QFunction assembly on a device gives the values of the QFunction on unit inputs, for all histories without an
application between assemblies and on every schedule
-/

set_option linter.unusedSectionVars false

namespace Verif.Gpu

open Verif.Basis (EMode)
open Verif.Operator (VPtr FVec LVec Meaning Advances OpOK offset Columns LinearQF)

variable {α : Type} [CommRing α] {dv : Device} {op : GOper α} {S : Meaning α} {D : Dev α} {inv outv : VPtr}

/-! ## Histories -/

theorem TB.of_ok {σ β : Type} {B : Prop} {m : M σ β} {s s' : σ} {a : β} {Q : σ → β → Prop} (h : TB B m s Q) (e : m s = .ok s' a) :
    Q s' a := by
  rcases h with ⟨-, h⟩ | ⟨s1, b, e1, h⟩
  · exact absurd e (h s' a)
  · rw [e] at e1; cases e1; exact h

theorem liftQ_ok {β : Type} {m : M (GSt α) β} {s s' : QSt α} {b : β} (h : liftQ m s = .ok s' b) :
    ∃ t, m s.st = .ok t b ∧ s' = { s with st := t } := by
  unfold liftQ at h
  cases hm : m s.st with
  | ok t c => rw [hm] at h; cases h; exact ⟨t, rfl, rfl⟩
  | err t c => rw [hm] at h; cases h
  | ub => rw [hm] at h; cases h

theorem apply_eq {m : M (GSt α) Unit} {s s' : QSt α} (e : (do liftQ m; afterApply op : M (QSt α) Unit) s = .ok s' ()) :
    ∃ t, m s.st = .ok t () ∧ s' = { s with
      st := t
      freed := fun i => s.freed i || decide (0 < op.ne ∧ i < op.nin ∧ (op.inp i).vec = .active ∧ (op.inp i).mode = .none) } := by
  rw [M.bind_apply] at e
  cases h1 : liftQ m s with
  | err t c => rw [h1] at e; cases e
  | ub => rw [h1] at e; cases e
  | ok s1 u =>
    rw [h1] at e
    obtain ⟨t, e1, rfl⟩ := liftQ_ok h1
    cases e
    exact ⟨t, e1, rfl⟩

/-- What an application leaves. -/
theorem QGood.applied (hne : 0 < op.ne) {s s' : QSt α} (hg : QGood op S s) {m : M (GSt α) Unit} (hk : Kp op m)
    (hm : ∀ t, m s.st = .ok t () → GGood op S t) (e : (do liftQ m; afterApply op : M (QSt α) Unit) s = .ok s' ()) :
    QGood op S s' ∧ s'.built = s.built ∧ s'.reuse = s.reuse ∧ s'.needs = s.needs ∧ s'.act = s.act := by
  obtain ⟨t, e1, rfl⟩ := apply_eq e
  refine ⟨⟨hm t e1, hg.dst, ?_, hg.nOut, hg.built, fun ha i hi hai hf => ?_, fun ha i hi hai hf => ?_⟩, rfl, rfl, rfl, rfl⟩
  · rcases hg.act with h2 | ⟨h2, h3⟩
    · exact .inl h2
    · exact .inr ⟨h2, (hk _ _ _ e1 h3).1⟩
  · have hf' : (s.freed i || decide (0 < op.ne ∧ i < op.nin ∧ (op.inp i).vec = .active ∧ (op.inp i).mode = .none)) = false := hf
    rw [Bool.or_eq_false_iff, decide_eq_false_iff_not] at hf'
    have hd := (hg.act.resolve_left ha).2
    exact (hk _ _ _ e1 hd).2 i (fun hm => hf'.2 ⟨hne, hi, hai, hm⟩) (hg.val ha i hi hai hf'.1)
  · have hf' : (s.freed i || decide (0 < op.ne ∧ i < op.nin ∧ (op.inp i).vec = .active ∧ (op.inp i).mode = .none)) = true := hf
    rw [Bool.or_eq_true, decide_eq_true_iff] at hf'
    rcases hf' with h2 | h2
    · exact hg.fr ha i hi hai h2
    · exact h2.2.2.2

/-- What a build or update leaves. -/
structure BuiltQF (op : GOper α) (S : Meaning α) (s s' : QSt α) (b : Buf α) : Prop where
  good : QGood op S s'
  vecs : s'.st.vecs = s.st.vecs
  fresh : Fresh op s → Fresh op s'
  safe : ¬ Bad op s → ¬ Bad op s'
  built : s'.built = some b
  reuse : s'.reuse = s.reuse
  needs : s'.needs = false
  cols : (s.built = none ∨ s.reuse = false ∨ s.needs = true) → Fresh op s → ColumnsDev op.host S s.st.L b
  kept : ∀ v, s.built = some v → s.reuse = true → s.needs = false → b = v

theorem build_ok (h : GOK dv op S) (hD : D.Real dv) (ha : Assemblable op) {s : QSt α} (hg : QGood op S s)
    (hp : PassiveReadyG op s.st) : TB (Bad op s) (buildOrUpdateG op D) s (BuiltQF op S s) := by
  have key : ∀ given : Option Nat, (∀ n, given = some n → n = lenQF op) →
      (∀ v, s.built = some v → s.reuse = true → s.needs = false → False) →
      TB (Bad op s) (assembleCoreG op D given) s fun s' v => TB (Bad op s)
        (do modQ fun s => { s with built := some v, needs := false }; pure v) s' (BuiltQF op S s) := by
    intro given hgiv hno
    refine TB.mono (core_ok h hD ha hg hp hgiv) fun s' b hA => .bind (Tr.tb (.modQ' (.inr (.pure
      ⟨⟨hA.good.g, hA.good.dst, hA.good.act, hA.good.nOut, ?_, hA.good.val, hA.good.fr⟩, hA.vecs, fun _ => hA.fresh,
        fun hh hb => hA.safe hh hb.2, rfl, hA.reuse, rfl, fun _ => hA.cols, fun v h1 h2 h3 => (hno v h1 h2 h3).elim⟩))))
    intro v hv
    cases hv
    exact hA.len
  unfold buildOrUpdateG currentQFG
  refine .bind ?_
  refine .bind (Tr.tb (.getQ' ?_))
  cases hb : s.built with
  | none => exact key none (fun n hn => by cases hn) (fun v hv => by rw [hb] at hv; cases hv)
  | some v =>
    show TB _ (if _ then _ else _) s _
    by_cases hc : s.reuse = false ∨ s.needs = true
    · rw [if_pos hc]
      refine key (some v.len) (fun n hn => ?_) fun v' _ h1 h2 => ?_
      · cases hn
        exact hg.built v hb
      · rcases hc with h3 | h3
        · rw [h1] at h3; cases h3
        · rw [h2] at h3; cases h3
    · rw [if_neg hc]
      rw [not_or, Bool.not_eq_false, Bool.not_eq_true] at hc
      refine .inr (.pure (.inr (.bind (.modQ' (.pure ⟨⟨hg.g, hg.dst, hg.act, hg.nOut, ?_, hg.val, hg.fr⟩, rfl, id, id, rfl, rfl, rfl,
        fun hh => ?_, fun w hw _ _ => ?_⟩)))))
      · intro w hw
        cases hw
        exact hg.built v hb
      · rcases hh with h1 | h1 | h1
        · rw [hb] at h1; cases h1
        · rw [hc.1] at h1; cases h1
        · rw [hc.2] at h1; cases h1
      · rw [hb] at hw; cases hw; rfl

theorem QReach.good (h : GOK dv op S) (hD : D.Real dv) (ha : Assemblable op) {s : QSt α} (hr : QReach op D s) : QGood op S s := by
  induction hr with
  | start s hd hv h1 h2 h3 h4 =>
    exact ⟨⟨hv, fun hc => by rw [hd] at hc; cases hc⟩, h4, .inl h1, .inl h2, (fun v hh => by rw [h3] at hh; cases hh),
      fun hh => absurd h1 hh, fun hh => absurd h1 hh⟩
  | user _ hadv ih => exact ⟨ih.g.adv hadv, ih.dst, ih.act, ih.nOut, ih.built, ih.val, ih.fr⟩
  | @applyAdd s s' wk inv outv _ hi ho e ih =>
    refine (ih.applied ha.ne kp_applyAdd (fun t et => ?_) e).1
    obtain ⟨s1, _, e1, h1⟩ := applyAdd_ok h hD wk ih.g hi ho
    rw [et] at e1; cases e1; exact h1.1
  | @apply s s' wk inv outv _ hi ho e ih =>
    refine (ih.applied ha.ne kp_apply (fun t et => ?_) e).1
    obtain ⟨s1, _, e1, h1⟩ := apply_ok h hD wk ih.g hi ho
    rw [et] at e1; cases e1; exact h1.1
  | assemble _ hi e ih => exact ((core_ok h hD ha ih hi (fun n hn => by cases hn)).of_ok e).good
  | build _ hi e ih => exact ((build_ok h hD ha ih hi).of_ok e).good
  | reuse _ e ih => cases e; exact ⟨ih.g, ih.dst, ih.act, ih.nOut, ih.built, ih.val, ih.fr⟩
  | needs _ e ih => cases e; exact ⟨ih.g, ih.dst, ih.act, ih.nOut, ih.built, ih.val, ih.fr⟩

theorem QUnassembled.reach {s : QSt α} (hr : QUnassembled op D s) : QReach op D s ∧ s.act = [] := by
  induction hr with
  | start s hd hv h1 h2 h3 h4 => exact ⟨.start s hd hv h1 h2 h3 h4, h1⟩
  | user _ hadv ih => exact ⟨.user ih.1 hadv, ih.2⟩
  | applyAdd _ hi ho e ih =>
    refine ⟨.applyAdd ih.1 hi ho e, ?_⟩
    obtain ⟨t, -, rfl⟩ := apply_eq e
    exact ih.2
  | apply _ hi ho e ih =>
    refine ⟨.apply ih.1 hi ho e, ?_⟩
    obtain ⟨t, -, rfl⟩ := apply_eq e
    exact ih.2

theorem QNoApply.reach {s s' : QSt α} (hr : QReach op D s) (hn : QNoApply op D s s') : QReach op D s' := by
  induction hn with
  | refl => exact hr
  | user _ hadv ih => exact .user ih hadv
  | assemble _ hi e ih => exact .assemble ih hi e
  | build _ hi e ih => exact .build ih hi e
  | reuse _ e ih => exact .reuse ih e
  | needs _ e ih => exact .needs ih e

theorem QNoApply.fresh (h : GOK dv op S) (hD : D.Real dv) (ha : Assemblable op) {s s' : QSt α} (hr : QReach op D s)
    (hn : QNoApply op D s s') : (Fresh op s → Fresh op s') ∧ (¬ Bad op s → ¬ Bad op s') := by
  induction hn with
  | refl => exact ⟨id, id⟩
  | user _ hadv ih => exact ih
  | assemble hn hi e ih =>
    have hA := (core_ok h hD ha ((hn.reach hr).good h hD ha) hi (fun n hn => by cases hn)).of_ok e
    exact ⟨fun _ => hA.fresh, fun hb hc => hA.safe (ih.2 hb) hc.2⟩
  | build hn hi e ih =>
    have hA := (build_ok h hD ha ((hn.reach hr).good h hD ha) hi).of_ok e
    exact ⟨fun hf => hA.fresh (ih.1 hf), fun hb => hA.safe (ih.2 hb)⟩
  | reuse _ e ih => cases e; exact ih
  | needs _ e ih => cases e; exact ih

/-! ## Properties -/

/-- The first assembly after any number of applications, and further assemblies without an application in between, succeed,
change no vector, and return the values of the QFunction on unit inputs, whatever the schedule of the kernels. (Missing:
assemblies after an assembly and an application, see `C73_stale_witness` and `C73_dangling_witness`.) -/
theorem C73_columns_partial (h : GOK dv op S) (hD : D.Real dv) (ha : Assemblable op) {s s1 : QSt α} (hs : QUnassembled op D s)
    (hn : QNoApply op D s s1) (hp : PassiveReadyG op s1.st) :
    ∃ s' b, assembleQFG op D s1 = .ok s' b ∧ ColumnsDev op.host S s1.st.L b ∧ s'.st.vecs = s1.st.vecs := by
  obtain ⟨hr, h0⟩ := hs.reach
  obtain ⟨hf, hb⟩ := hn.fresh h hD ha hr
  rcases core_ok h hD ha ((hn.reach hr).good h hD ha) hp (given := none) (fun n hn => by cases hn) with ⟨h1, -⟩ | ⟨s', b, e, hA⟩
  · exact absurd h1 (hb fun hc => hc.1 h0)
  · exact ⟨s', b, e, hA.cols (hf (.inl h0)), hA.vecs⟩

/-- After any history, an assembly that follows another without an application in between returns the values of the QFunction
on unit inputs if it succeeds. -/
theorem C73_again_partial (h : GOK dv op S) (hD : D.Real dv) (ha : Assemblable op) {s s1 s2 s3 : QSt α} (hr : QReach op D s)
    (hp : PassiveReadyG op s.st) {b b' : Buf α} (e : assembleQFG op D s = .ok s1 b) (hn : QNoApply op D s1 s2)
    (hp' : PassiveReadyG op s2.st) (e' : assembleQFG op D s2 = .ok s3 b') : ColumnsDev op.host S s2.st.L b' := by
  have hA := (core_ok h hD ha (hr.good h hD ha) hp (fun n hn => by cases hn)).of_ok e
  have hr1 : QReach op D s1 := .assemble hr hp e
  exact ((core_ok h hD ha ((hn.reach hr1).good h hD ha) hp' (fun n hn => by cases hn)).of_ok e').cols
    ((hn.fresh h hD ha hr1).1 hA.fresh)

/-- No active input is without basis. -/
def BasisActive (op : GOper α) : Prop := ∀ i < op.nin, (op.inp i).vec = .active → (op.inp i).mode ≠ .none

theorem QGood.not_bad {s : QSt α} (hg : QGood op S s) (hb : BasisActive op) : ¬ Bad op s := by
  rintro ⟨h0, i, hi, hai, hf⟩
  exact hb i hi hai (hg.fr h0 i hi hai hf)

/-- If all active inputs have a basis, an assembly succeeds after every history of applications and assemblies, returns a
vector of the right length, and changes no vector. -/
theorem C73_succeeds_partial (h : GOK dv op S) (hD : D.Real dv) (ha : Assemblable op) (hb : BasisActive op) {s : QSt α}
    (hr : QReach op D s) (hp : PassiveReadyG op s.st) :
    ∃ s' b, assembleQFG op D s = .ok s' b ∧ b.len = op.ne * op.Q * op.host.cIn * op.host.cOut ∧ s'.st.vecs = s.st.vecs := by
  have hg := hr.good h hD ha
  rcases core_ok h hD ha hg hp (given := none) (fun n hn => by cases hn) with ⟨h1, -⟩ | ⟨s', b, e, hA⟩
  · exact absurd h1 (hg.not_bad hb)
  · exact ⟨s', b, e, hA.len, hA.vecs⟩

/-- If all active inputs have a basis and at most two components in total, every assembly is right, after every history of
applications and assemblies. -/
theorem C73_columns_two (h : GOK dv op S) (hD : D.Real dv) (ha : Assemblable op) (hb : BasisActive op) (h2 : op.host.cIn ≤ 2)
    {s : QSt α} (hr : QReach op D s) (hp : PassiveReadyG op s.st) :
    ∃ s' b, assembleQFG op D s = .ok s' b ∧ ColumnsDev op.host S s.st.L b := by
  have hg := hr.good h hD ha
  rcases core_ok h hD ha hg hp (given := none) (fun n hn => by cases hn) with ⟨h1, -⟩ | ⟨s', b, e, hA⟩
  · exact absurd h1 (hg.not_bad hb)
  · exact ⟨s', b, e, hA.cols (.inr fun j hj h0 h1 => absurd h1 (by omega))⟩

/-- Assemblies do not disturb applications: after every history of both, an application adds the action of the operator. -/
theorem C73_apply_add (h : GOK dv op S) (hD : D.Real dv) (ha : Assemblable op) {s : QSt α} (hr : QReach op D s) (wk : Work α)
    (hi : InReadyG op inv s.st) (ho : OutReadyG op outv s.st) :
    ∃ s', applyAddQ op D wk inv outv s = .ok s' () ∧
      (∀ v t, s'.st.L v t = s.st.L v t + S.action op.host s.st.L inv outv v t) ∧
      ∀ v, (∀ o < op.nout, (op.out o).vec.ptr outv ≠ .vec v) → s'.st.vecs v = s.st.vecs v := by
  obtain ⟨t, u, e, -, -, h1, h2⟩ := applyAdd_ok h hD wk (hr.good h hD ha).g hi ho
  refine ⟨{ s with
      st := t
      freed := fun i => s.freed i || decide (0 < op.ne ∧ i < op.nin ∧ (op.inp i).vec = .active ∧ (op.inp i).mode = .none) },
    ?_, h2, h1⟩
  unfold applyAddQ
  rw [M.bind_apply]
  unfold liftQ
  rw [e]
  rfl

/-- `CeedOperatorApply` stores the action. -/
theorem C73_apply (h : GOK dv op S) (hD : D.Real dv) (ha : Assemblable op) {s : QSt α} (hr : QReach op D s) (wk : Work α)
    (hi : InReadyG op inv s.st) (ho : OutLongG op outv s.st) :
    ∃ s', applyQ op D wk inv outv s = .ok s' () ∧
      (∀ v, (∃ o < op.nout, (op.out o).vec.ptr outv = .vec v) → ∀ t,
        s'.st.L v t = S.action op.host (Operator.zeroed op.host outv s.st.L) inv outv v t) ∧
      ∀ v, (∀ o < op.nout, (op.out o).vec.ptr outv ≠ .vec v) → s'.st.vecs v = s.st.vecs v := by
  obtain ⟨t, u, e, -, -, h1, h2⟩ := apply_ok h hD wk (hr.good h hD ha).g hi ho
  refine ⟨{ s with
      st := t
      freed := fun i => s.freed i || decide (0 < op.ne ∧ i < op.nin ∧ (op.inp i).vec = .active ∧ (op.inp i).mode = .none) },
    ?_, h2, h1⟩
  unfold applyQ
  rw [M.bind_apply]
  unfold liftQ
  rw [e]
  rfl

/-- `CeedOperatorLinearAssembleQFunctionBuildOrUpdate` returns the same as an assembly the first time, if reuse is off (the
default), or if an update has been requested. (Missing: as for `C73_columns_partial`.) -/
theorem C73_build_partial (h : GOK dv op S) (hD : D.Real dv) (ha : Assemblable op) {s s1 : QSt α} (hs : QUnassembled op D s)
    (hn : QNoApply op D s s1) (hp : PassiveReadyG op s1.st) (hf : s1.built = none ∨ s1.reuse = false ∨ s1.needs = true) :
    ∃ s' b, buildOrUpdateG op D s1 = .ok s' b ∧ ColumnsDev op.host S s1.st.L b ∧ s'.st.vecs = s1.st.vecs := by
  obtain ⟨hr, h0⟩ := hs.reach
  obtain ⟨hfr, hb⟩ := hn.fresh h hD ha hr
  rcases build_ok h hD ha ((hn.reach hr).good h hD ha) hp with ⟨h1, -⟩ | ⟨s', b, e, hA⟩
  · exact absurd h1 (hb fun hc => hc.1 h0)
  · exact ⟨s', b, e, hA.cols hf (hfr (.inl h0)), hA.vecs⟩

/-- While reuse is on and no update is requested, the built vector is returned again, whatever is applied in between and
whatever becomes of the inputs. -/
theorem C73_reuse (h : GOK dv op S) (hD : D.Real dv) (ha : Assemblable op) {s s1 s2 : QSt α} (hr : QReach op D s)
    (hp : PassiveReadyG op s.st) (hre : s.reuse = true) {b : Buf α} (e : buildOrUpdateG op D s = .ok s1 b)
    (hk : QKeeps op D s1 s2) : ∃ s3, buildOrUpdateG op D s2 = .ok s3 b := by
  have hA := (build_ok h hD ha (hr.good h hD ha) hp).of_ok e
  have again : ∀ s : QSt α, s.built = some b → s.reuse = true → s.needs = false →
      buildOrUpdateG op D s = .ok { s with built := some b, needs := false } b := by
    intro s h1 h2 h3
    unfold buildOrUpdateG currentQFG
    simp only [M.bind_apply, getQ, Out.bind, h1, h2, h3]
    rw [if_neg (by decide)]
    simp only [modQ]
    show Out.ok { s with built := some b, needs := false } b = _
    rw [← h2]
  have inv : s2.built = some b ∧ s2.reuse = true ∧ s2.needs = false := by
    clear e
    induction hk with
    | refl => exact ⟨hA.built, hA.reuse.trans hre, hA.needs⟩
    | user _ _ ih => exact ih
    | applyAdd _ e ih =>
      obtain ⟨t, -, rfl⟩ := apply_eq e
      exact ih
    | apply _ e ih =>
      obtain ⟨t, -, rfl⟩ := apply_eq e
      exact ih
    | build _ e ih =>
      rw [again _ ih.1 ih.2.1 ih.2.2] at e
      cases e
      exact ⟨rfl, ih.2.1, rfl⟩
  exact ⟨_, again s2 inv.1 inv.2.1 inv.2.2⟩

/-- A requested update and a change of the reuse flag make the next call assemble again. -/
theorem C73_update_partial (h : GOK dv op S) (hD : D.Real dv) (ha : Assemblable op) {s s1 s2 : QSt α} (hs : QUnassembled op D s)
    (hn : QNoApply op D s s1) (hu : (∃ x, setReuseG x s1 = .ok s2 ()) ∨ setNeedsG true s1 = .ok s2 ())
    (hp : PassiveReadyG op s1.st) :
    ∃ s' b, buildOrUpdateG op D s2 = .ok s' b ∧ ColumnsDev op.host S s1.st.L b := by
  rcases hu with ⟨x, hx⟩ | hx
  · have hn2 : QNoApply op D s s2 := .reuse hn hx
    cases hx
    obtain ⟨s', b, e, h1, -⟩ := C73_build_partial h hD ha hs hn2 hp (.inr (.inr rfl))
    exact ⟨s', b, e, h1⟩
  · have hn2 : QNoApply op D s s2 := .needs hn hx
    cases hx
    obtain ⟨s', b, e, h1, -⟩ := C73_build_partial h hD ha hs hn2 hp (.inr (.inr rfl))
    exact ⟨s', b, e, h1⟩

/-- The same values as on the reference backend (C43), at the positions given by the strides of the two restrictions. -/
theorem C73_reference {L : Nat → Nat → α} {b b' : Buf α} (hb : ColumnsDev op.host S L b) (hb' : Columns op.host S L b')
    {e i c o d q : Nat} (he : e < op.ne) (hi : i < op.nin) (hai : (op.inp i).vec = .active) (hc : c < (op.inp i).size)
    (ho : o < op.nout) (hao : (op.out o).vec = .active) (hd : d < (op.out o).size) (hq : q < op.Q) :
    b.len = b'.len ∧
      b.val ((((offset op.host.inp i + c) * op.host.cOut + (offset op.host.out o + d)) * op.ne + e) * op.Q + q) =
        b'.val (((e * op.host.cIn + (offset op.host.inp i + c)) * op.host.cOut + (offset op.host.out o + d)) * op.Q + q) :=
  ⟨hb.1.trans hb'.1.symm, (hb.2 e he i hi hai c hc o ho hao d hd q hq).trans (hb'.2 e he i hi hai c hc o ho hao d hd q hq).symm⟩

/-- All schedules of the kernels give the same values. -/
theorem C73_schedule_partial (h : GOK dv op S) {D' : Dev α} (hD : D.Real dv) (hD' : D'.Real dv) (ha : Assemblable op)
    {s s1 f f1 : QSt α} (hs : QUnassembled op D s) (hn : QNoApply op D s s1) (hf : QUnassembled op D' f)
    (hfn : QNoApply op D' f f1) (hp : PassiveReadyG op s1.st) (hp' : PassiveReadyG op f1.st) (hL : s1.st.L = f1.st.L) :
    ∃ s' f' b b', assembleQFG op D s1 = .ok s' b ∧ assembleQFG op D' f1 = .ok f' b' ∧ b.len = b'.len ∧
      ∀ e < op.ne, ∀ i < op.nin, (op.inp i).vec = .active → ∀ c < (op.inp i).size, ∀ o < op.nout,
        (op.out o).vec = .active → ∀ d < (op.out o).size, ∀ q < op.Q,
        let x := (((offset op.host.inp i + c) * op.host.cOut + (offset op.host.out o + d)) * op.ne + e) * op.Q + q
        b.val x = b'.val x := by
  obtain ⟨s', b, e1, h1, -⟩ := C73_columns_partial h hD ha hs hn hp
  obtain ⟨f', b', e2, h2, -⟩ := C73_columns_partial h hD' ha hf hfn hp'
  rw [hL] at h1
  refine ⟨s', f', b, b', e1, e2, h1.1.trans h2.1.symm, fun e he i hi hai c hc o ho hao d hd q hq => ?_⟩
  exact (h1.2 e he i hi hai c hc o ho hao d hd q hq).trans (h2.2 e he i hi hai c hc o ho hao d hd q hq).symm

theorem err_bind {σ β γ : Type} {m : M σ β} {f : β → M σ γ} {s : σ} {c : Err} {Q : σ → β → Prop} (h : Tr m s Q)
    (hf : ∀ s a, Q s a → ∃ s', f a s = .err s' c) : ∃ s', (m >>= f) s = .err s' c := by
  obtain ⟨s1, a, e, hq⟩ := h
  obtain ⟨s', e'⟩ := hf s1 a hq
  exact ⟨s', by rw [M.bind_apply, e]; exact e'⟩

/-- An operator with elements but without active inputs or without active outputs: the first assembly returns an error. -/
theorem C73_nothing (h : GOK dv op S) (hD : D.Real dv) (hne : 0 < op.ne) (h0 : op.host.cIn = 0 ∨ op.host.cOut = 0) {s : QSt α}
    (hs : QUnassembled op D s) (hp : PassiveReadyG op s.st) : ∃ s', assembleQFG op D s = .err s' .backend := by
  obtain ⟨hg, h1, h2⟩ : GGood op S s.st ∧ s.act = [] ∧ s.nOut = 0 := by
    clear hp
    induction hs with
    | start s hd hv h1 h2 h3 h4 => exact ⟨⟨hv, fun hc => by rw [hd] at hc; cases hc⟩, h1, h2⟩
    | user _ hadv ih => exact ⟨ih.1.adv hadv, ih.2⟩
    | @applyAdd s s' wk inv outv _ hi ho e ih =>
      obtain ⟨t, et, rfl⟩ := apply_eq e
      obtain ⟨s1, _, e1, h1⟩ := applyAdd_ok h hD wk ih.1 hi ho
      rw [et] at e1; cases e1; exact ⟨h1.1, ih.2⟩
    | @apply s s' wk inv outv _ hi ho e ih =>
      obtain ⟨t, et, rfl⟩ := apply_eq e
      obtain ⟨s1, _, e1, h1⟩ := apply_ok h hD wk ih.1 hi ho
      rw [et] at e1; cases e1; exact ⟨h1.1, ih.2⟩
  refine err_bind (Tr.liftQ' (setup_ok h hD hne hg)) ?_
  rintro s1 _ ⟨e1, d1, r1, v1⟩
  have hp1 : PassiveReadyG op s1.st := by
    intro i hi hw hna
    obtain ⟨r, v, a1, a2, a3, a4⟩ := hp i hi hw hna
    exact ⟨r, v, a1, a2, by rw [v1]; exact a3, by rw [v1]; exact a4⟩
  refine err_bind (Tr.liftQ' (nat_inputs h hD hne d1 r1 hp1 (by rw [v1]; exact hg.v0))) ?_
  rintro s2 _ ⟨e2, n2⟩
  have hact2 : s2.act = [] := by rw [e2, e1]; exact h1
  refine err_bind (Q := fun s3 _ => s3.act = Verif.Gpu.actPre op op.nin ∧ s3.nOut = 0) ?_ ?_
  · refine .bind (.getQ' ?_)
    rw [if_pos hact2]
    refine Tr.mono (make_ok (V := s1.st.vecs) h ⟨n2.fix, n2.vecs, n2.dn, n2.wr, n2.rd, n2.qout, n2.borS, n2.borN, n2.vals, n2.gath,
      fun _ _ => rfl⟩ hact2) ?_
    rintro s3 _ ⟨e3, -⟩
    rw [e3]
    exact ⟨rfl, by show s2.nOut = 0; rw [e2, e1]; exact h2⟩
  · rintro s3 _ ⟨a3, n3⟩
    refine err_bind (Q := fun s4 _ => s4.act = Verif.Gpu.actPre op op.nin ∧ s4.nOut = op.host.cOut) ?_ ?_
    · refine .bind (.getQ' ?_)
      rw [if_pos n3]
      exact .modQ' ⟨a3, Operator.countSizes_eq _ _⟩
    · rintro s4 _ ⟨a4, n4⟩
      refine err_bind (Q := fun s5 x => s5 = s4 ∧ x = s4) (.getQ' ⟨rfl, rfl⟩) ?_
      rintro s5 x ⟨e5, rfl⟩
      subst e5
      refine ⟨s5, ?_⟩
      rw [M.bind_apply, M.check_false]
      · rfl
      · rw [a4, n4, actPre_length]
        show ¬ (0 < op.host.cIn ∧ _)
        omega

/-! ## Assembled matrices and diagonals -/

/-- The matrix assembled on the device from the QFunction assembled on the device is that of the operator (C70). -/
theorem C73_matrix_partial (h : GOK dv op S) (hD : D.Real dv) (ha : Assemblable op) {s s1 : QSt α} (hs : QUnassembled op D s)
    (hn : QNoApply op D s s1) (hp : PassiveReadyG op s1.st)
    (hf : s1.built = none ∨ s1.reuse = false ∨ s1.needs = true) {p : Operator.Prec α} (hh : OpOK op.host S)
    (hp' : Operator.FullOK op.host p S) (hlin : LinearQF op.host) {N : Nat} (hc : Operator.countEntries op.host = .ok N)
    (hN : 0 < N) {off : Nat} {rc rc' : Buf (Int × Int)} (hsy : Operator.symbolicSingle op.host p off rc = .ok rc')
    (hrl : off + N ≤ rc.len) {v : Buf α} (hl : off + N ≤ v.len)
    (hcurl : ∀ ri ro, Operator.activePair op.host = .ok (ri, ro) →
      ((op.host.rstrs ri).rtype = .curlOriented ↔ (op.host.rstrs ro).rtype = .curlOriented) ∧
      ((op.host.rstrs ri).rtype = .curlOriented →
        (op.host.rstrs ri).elemSize * (op.host.rstrs ro).elemSize ≤ dv.maxThreads)) {A : Nat → Nat → α}
    (hA : Operator.IsMatrix op.host S s1.st.L p.inSize.toNat A) :
    ∃ s' b, buildOrUpdateG op D s1 = .ok s' b ∧ ∀ junk Ln, assembleDev dv junk op.host p b off v = .ok Ln →
      Runs Ln.G Ln.B Ln.cfg fun m => ∀ t c, c < p.inSize.toNat →
        Operator.coo N (fun k => rc'.val (off + k)) (fun k => m .v (off + k)) t c = A t c := by
  obtain ⟨s', b, e, hb, -⟩ := C73_build_partial h hD ha hs hn hp hf
  exact ⟨s', b, e, fun junk Ln el => (C70_assemble_partial hh hp' hlin hb hc hN hsy hrl hl hcurl el hA).mono fun m hm => hm.1⟩

/-- The diagonal assembled on the device from the QFunction assembled on the device is that of the operator (C71). -/
theorem C73_diagonal_partial (h : GOK dv op S) (hD : D.Real dv) (ha : Assemblable op) {s s1 : QSt α} (hs : QUnassembled op D s)
    (hn : QNoApply op D s s1) (hp : PassiveReadyG op s1.st)
    (hf : s1.built = none ∨ s1.reuse = false ∨ s1.needs = true) {p : Operator.Prec α} (hh : OpOK op.host S)
    (hp' : Operator.FullOK op.host p S) (hsq : p.inSize = p.outSize) (hai : Alternating p op.host.inp p.inB op.nin)
    (hao : Alternating p op.host.out p.outB op.nout)
    (hbas : ∀ i < op.nin, (op.inp i).vec = .active → p.inB i ≠ none) (hlin : LinearQF op.host) {A : Nat → Nat → α}
    (hA : Operator.IsMatrix op.host S s1.st.L p.inSize.toNat A) :
    ∃ s' b, buildOrUpdateG op D s1 = .ok s' b ∧ ∀ Ln r n, diagonalDev dv false op.host p b = .ok (Ln, r, n) →
      (op.host.rstrs r).rtype ≠ .curlOriented →
      (∀ e < op.ne, ∀ m < (S.D r).es, ∀ m' < (S.D r).es, ∀ k < (S.D r).nc, ∀ k' < (S.D r).nc,
        (S.D r).lidx e m k = (S.D r).lidx e m' k' → m = m' ∧ k = k') →
      ∀ X : CRstr, ScatterUnsigned X (S.D r) → ∀ v : Buf α, X.base.lSize ≤ v.len →
        Runs Ln.G Ln.B Ln.cfg fun m => Launches (diagScatter false X ⟨n, m .v⟩ v) fun m' =>
          (∀ t < p.inSize.toNat, m' .v t = v.val t + A t t) ∧ ∀ t, p.inSize.toNat ≤ t → m' .v t = v.val t := by
  obtain ⟨s', b, e, hb, -⟩ := C73_build_partial h hD ha hs hn hp hf
  exact ⟨s', b, e, fun Ln r n el hcu hinj X hX v hv => C71_diagonal_partial hh hp' hsq hai hao hbas hlin hb el hcu hinj hX hv hA⟩

end Verif.Gpu
