import Verif.Operator.AssembleRun
import Verif.Operator.Examples

/-!
# C43: the assembled QFunction
-/

set_option linter.unusedSectionVars false

namespace Verif
namespace Operator

open Finset

variable {α : Type} [CommRing α]

theorem Unassembled.good {op : Oper α} {S : Meaning α} (h : OpOK op S) {s : ASt α} (hs : Unassembled op s) :
    Good op S s.st ∧ AData op s ∧ Sound op s :=
  ⟨(hs.1.good h).1, ⟨Or.inl hs.2.1, Or.inl hs.2.2.1, fun v hv => by rw [hs.2.2.2.1] at hv; cases hv⟩,
    hs.2.2.2.2, Or.inl hs.2.1⟩

/-- After any history of applications, failed calls included, the first assembly, and every later one as long as the
operator is not applied again, returns the values of the QFunction on all unit inputs, with the passive inputs as the
vectors are at the time of the call; however the vectors changed and whatever was assembled in between. (The property
asks for this also with applications in between, for which it is false: `C43_stale_witness`; and for operators with two
active inputs without basis on the same restriction, for which it is false after an application: `C43_shared_witness`.) -/
theorem C43_columns_partial {op : Oper α} {S : Meaning α} (h : OpOK op S) {s s1 s2 : ASt α} (hs : Unassembled op s)
    (hn : NoApply op s s1) {junk : Nat → Nat → α} {v : Buf α} (e : assembleQF op junk s1 = .ok s2 v) :
    Columns op S s1.st.L v := by
  obtain ⟨g1, g2, g3⟩ := hs.good h
  obtain ⟨b1, b2, b3⟩ := hn.sound h g1 g2 g3
  exact ((M.wp_ok (assembleCore_wp h _ b1 b2 (by intro n hn; cases hn) (R := False) (fun hh => hh.elim)) e).cols b3).1

/-- If the active inputs have a single component in total, every assembly is right, after any history of applications and
assemblies. -/
theorem C43_columns_single {op : Oper α} {S : Meaning α} (h : OpOK op S) (hsep : Separate op) (h1 : op.cIn = 1)
    {s s' : ASt α} (hs : AReach op True s) {junk : Nat → Nat → α} {v : Buf α} (e : assembleQF op junk s = .ok s' v) :
    Columns op S s.st.L v := by
  obtain ⟨g1, g2, _⟩ := hs.good h
  exact ((M.wp_ok (assembleCore_wp h _ g1 g2 (by intro n hn; cases hn) (R := False) (fun hh => hh.elim)) e).cols
    ⟨hsep, Or.inr (Or.inl h1)⟩).1

/-- `CeedOperatorLinearAssembleQFunctionBuildOrUpdate` returns the same when it assembles, that is the first time, if
reuse is off (the default), or if an update has been requested. (Missing: applications in between.) -/
theorem C43_build_partial {op : Oper α} {S : Meaning α} (h : OpOK op S) {s s1 s2 : ASt α} (hs : Unassembled op s)
    (hn : NoApply op s s1) (hf : s1.built = none ∨ s1.reuse = false ∨ s1.needs = true) {junk : Nat → Nat → α} {v : Buf α}
    (e : buildOrUpdate op junk s1 = .ok s2 v) : Columns op S s1.st.L v := by
  obtain ⟨g1, g2, g3⟩ := hs.good h
  obtain ⟨b1, b2, b3⟩ := hn.sound h g1 g2 g3
  rcases M.wp_ok (buildOrUpdate_wp h _ b1 b2 (R := False) (fun hh => hh.elim)) e with ⟨_, s3, hA, _⟩ | ⟨hh, _⟩
  · exact (hA.cols b3).1
  · exact absurd hf hh

theorem AReach.keeps {op : Oper α} {fails : Prop} {s s' : ASt α} (hs : AReach op fails s) (hk : KeepsFlags op s s') :
    AReach op fails s' := by
  induction hk with
  | refl => exact hs
  | user _ ha ih => exact .user ih ha
  | apply _ e ih => exact .apply ih e
  | applyAdd _ e ih => exact .applyAdd ih e
  | assemble _ e ih => exact .assemble ih e
  | build _ e ih => exact .build ih e

/-- With reuse, the vector assembled once is returned again, whatever happens, until an update is requested. -/
theorem C43_reuse {op : Oper α} {S : Meaning α} (h : OpOK op S) {s s1 s2 : ASt α} (hs : AReach op True s)
    (hr : s.reuse = true) {junk junk' : Nat → Nat → α} {v : Buf α} (e : buildOrUpdate op junk s = .ok s1 v)
    (hk : KeepsFlags op s1 s2) : ∃ s3, buildOrUpdate op junk' s2 = .ok s3 v := by
  have h1 : s1.built = some v ∧ s1.reuse = true ∧ s1.needs = false := by
    obtain ⟨g1, g2, _⟩ := hs.good h
    rcases M.wp_ok (buildOrUpdate_wp h _ g1 g2 (R := False) (fun hh => hh.elim)) e with ⟨_, s3, hA, rfl⟩ | ⟨_, hb, rfl⟩
    · exact ⟨rfl, hA.reuse.trans hr, rfl⟩
    · exact ⟨hb, hr, rfl⟩
  have hs1 : AReach op True s1 := .build hs e
  have h2 : s2.built = some v ∧ s2.reuse = true ∧ s2.needs = false := by
    clear e hs
    induction hk with
    | refl => exact h1
    | user _ _ ih => exact ih
    | apply _ e ih => obtain ⟨t, _, rfl⟩ := liftS_eq_ok e; exact ih
    | applyAdd _ e ih => obtain ⟨t, _, rfl⟩ := liftS_eq_ok e; exact ih
    | assemble hk e ih =>
      obtain ⟨g1, g2, _⟩ := (hs1.keeps hk).good h
      have hA := M.wp_ok (assembleCore_wp h _ g1 g2 (by intro n hn; cases hn) (R := False) (fun hh => hh.elim)) e
      exact ⟨hA.built.trans ih.1, hA.reuse.trans ih.2.1, hA.needs.trans ih.2.2⟩
    | build hk e ih =>
      obtain ⟨g1, g2, _⟩ := (hs1.keeps hk).good h
      rcases M.wp_ok (buildOrUpdate_wp h _ g1 g2 (R := False) (fun hh => hh.elim)) e with ⟨hf, _⟩ | ⟨_, hb, rfl⟩
      · rcases hf with hf | hf | hf
        · rw [ih.1] at hf; cases hf
        · rw [ih.2.1] at hf; cases hf
        · rw [ih.2.2] at hf; cases hf
      · exact ⟨ih.1, ih.2.1, rfl⟩
  refine ⟨{ s2 with needs := false }, ?_⟩
  unfold buildOrUpdate currentQF
  simp only [M.bind_apply, getA, Out.bind_ok, h2.1, updateQF, h2.2.1, h2.2.2]
  simp only [Bool.true_eq_false, Bool.false_eq_true, or_self, if_false, M.pure_apply, Out.bind_ok, modA,
    h2.2.1]

/-- Calls that request an update: `CeedOperatorSetQFunctionAssemblyReuse` (on or off) and
`CeedOperatorSetQFunctionAssemblyDataUpdateNeeded(true)`. The next `BuildOrUpdate` assembles. (Missing: applications in
between.) -/
theorem C43_update_partial {op : Oper α} {S : Meaning α} (h : OpOK op S) {s s1 s2 s3 : ASt α} (hs : Unassembled op s)
    (hn : NoApply op s s1) (hu : (∃ b, setReuse b s1 = .ok s2 ()) ∨ setNeeds true s1 = .ok s2 ()) {junk : Nat → Nat → α}
    {v : Buf α} (e : buildOrUpdate op junk s2 = .ok s3 v) : Columns op S s1.st.L v := by
  rcases hu with ⟨b, hb⟩ | hb
  · have hn2 : NoApply op s s2 := .reuse hn hb
    simp only [setReuse, modA, Out.ok.injEq, and_true] at hb
    subst hb
    exact C43_build_partial h hs hn2 (Or.inr (Or.inr rfl)) e
  · have hn2 : NoApply op s s2 := .needs hn hb
    simp only [setNeeds, modA, Out.ok.injEq, and_true] at hb
    subst hb
    exact C43_build_partial h hs hn2 (Or.inr (Or.inr rfl)) e

/-- `CeedOperatorSetQFunctionAssemblyDataUpdateNeeded(false)` withdraws the request. -/
theorem C43_withdraw {op : Oper α} {s s1 : ASt α} {v : Buf α} (hb : s.built = some v) (hr : s.reuse = true)
    (hn : setNeeds false s = .ok s1 ()) (junk : Nat → Nat → α) : ∃ s2, buildOrUpdate op junk s1 = .ok s2 v := by
  simp only [setNeeds, modA, Out.ok.injEq, and_true] at hn
  subst hn
  refine ⟨{ s with needs := false }, ?_⟩
  unfold buildOrUpdate currentQF
  simp only [M.bind_apply, getA, Out.bind_ok, hb, updateQF, hr]
  simp only [Bool.true_eq_false, Bool.false_eq_true, or_self, if_false, M.pure_apply, Out.bind_ok, modA, hr]

/-- An assembly changes no vector. -/
theorem C43_vectors {op : Oper α} {S : Meaning α} (h : OpOK op S) {s s' : ASt α} (hs : AReach op True s)
    {junk : Nat → Nat → α} {v : Buf α} (e : assembleQF op junk s = .ok s' v) : s'.st.vecs = s.st.vecs := by
  obtain ⟨g1, g2, _⟩ := hs.good h
  exact (M.wp_ok (assembleCore_wp h _ g1 g2 (by intro n hn; cases hn) (R := False) (fun hh => hh.elim)) e).vecs

/-- After a history without failing calls, an assembly succeeds exactly if the passive inputs hold data and are long
enough, there are active inputs and outputs, and the operator does more than restrict and scatter; no undefined behaviour
occurs then. -/
theorem C43_succeeds {op : Oper α} {S : Meaning α} (h : OpOK op S) {s : ASt α} (hs : AReach op False s)
    (junk : Nat → Nat → α) : (∃ s' v, assembleQF op junk s = .ok s' v) ↔
      PassiveReady op s.st ∧ 0 < op.cIn ∧ 0 < op.cOut ∧
        ¬ (op.isId = true ∧ (op.inp 0).mode = .none ∧ (op.out 0).mode = .none) := by
  obtain ⟨g1, g2, g3⟩ := hs.good h
  constructor
  · rintro ⟨s', v, e⟩
    have hA := M.wp_ok (assembleCore_wp h _ g1 g2 (by intro n hn; cases hn) (R := False) (fun hh => hh.elim)) e
    exact ⟨hA.ready, hA.pin, hA.pout, hA.notId⟩
  · rintro ⟨a1, a2, a3, a4⟩
    have := assembleCore_wp h junk g1 g2 (len := none) (by intro n hn; cases hn) (R := True)
      (fun _ => ⟨a1, g3 (fun hh => hh), a2, a3, a4⟩)
    cases e : assembleQF op junk s with
    | ok s' v => exact ⟨s', v, rfl⟩
    | err s' c => exact absurd trivial (M.wp_err this e).1
    | ub => exact absurd trivial (M.wp_ub this e)

/-! ## The action of the assembled QFunction -/

theorem sum_unit {op : Oper α} {i c q : Nat} (hi : i < op.nin) (ha : (op.inp i).vec = .active)
    (hc : c < (op.inp i).size) (hq : q < op.Q) (J : Nat → Nat → α) (u : Nat → Nat → α)
    (hu : ∀ j < op.nin, (op.inp j).vec = .active → ∀ x < op.Q * (op.inp j).size, u j x = unit op i c j x) :
    (∑ j ∈ range op.nin, if (op.inp j).vec = .active then
      ∑ d ∈ range (op.inp j).size, J j d * u j (d * op.Q + q) else 0) = J i c := by
  have hlt : ∀ j d, d < (op.inp j).size → d * op.Q + q < op.Q * (op.inp j).size := by
    intro j d hd
    have := enc3_lt (a := d) (b := 0) (n := (op.inp j).size) (by omega) hq
    rw [Nat.mul_comm op.Q]; simpa using this
  have hdiv : ∀ d, (d * op.Q + q) / op.Q = d := fun d => (div_eq_iff_slot (by omega)).2 ⟨by omega, by omega⟩
  rw [sum_eq_single i]
  · rw [if_pos ha, sum_eq_single c]
    · rw [hu i hi ha _ (hlt i c hc)]
      unfold unit
      rw [if_pos ⟨rfl, hdiv c⟩, mul_one]
    · intro d hd hdc
      rw [hu i hi ha _ (hlt i d (mem_range.1 hd))]
      unfold unit
      rw [if_neg, mul_zero]
      rintro ⟨_, hh⟩
      rw [hdiv] at hh; exact hdc hh
    · intro hh; exact absurd (mem_range.2 hc) hh
  · intro j hj hji
    split
    · rename_i haj
      refine sum_eq_zero (fun d hd => ?_)
      rw [hu j (mem_range.1 hj) haj _ (hlt j d (mem_range.1 hd))]
      unfold unit
      rw [if_neg (fun hh => hji hh.1), mul_zero]
    · rfl
  · intro hh; exact absurd (mem_range.2 hi) hh

/-- For a QFunction linear in its active inputs, the values on unit inputs determine it: at every quadrature point of every
element, the matrix stored for that point times the values of the active inputs at that point is what the QFunction
computes, for all values of the active inputs. -/
theorem C43_action {op : Oper α} {S : Meaning α} (hlin : LinearQF op) {L : Nat → Nat → α} {v : Buf α}
    (hv : Columns op S L v) {e : Nat} (he : e < op.ne) (a : Nat → Nat → α) {o d q : Nat} (ho : o < op.nout)
    (hao : (op.out o).vec = .active) (hd : d < (op.out o).size) (hq : q < op.Q) :
    op.eval (S.mix op L e a) o (d * op.Q + q) = ∑ i ∈ range op.nin, if (op.inp i).vec = .active then
      ∑ c ∈ range (op.inp i).size, v.val (op.apos e i c o d q) * a i (c * op.Q + q) else 0 := by
  obtain ⟨J, hJ⟩ := hlin (S.mix op L e (fun _ _ => 0)) o ho hao d hd q hq
  have hmix : ∀ b, op.eval (S.mix op L e b) o (d * op.Q + q) = ∑ i ∈ range op.nin, if (op.inp i).vec = .active then
      ∑ c ∈ range (op.inp i).size, J i c * S.mix op L e b i (c * op.Q + q) else 0 := by
    intro b
    refine hJ _ ?_ ?_
    · intro i x hi
      unfold Meaning.mix
      simp only [if_neg hi]
    · intro i x hx
      unfold Meaning.mix
      rw [if_neg hx]
  have hlt : ∀ j d, d < (op.inp j).size → d * op.Q + q < op.Q * (op.inp j).size := by
    intro j d hd
    have := enc3_lt (a := d) (b := 0) (n := (op.inp j).size) (by omega) hq
    rw [Nat.mul_comm op.Q]; simpa using this
  rw [hmix]
  refine sum_congr rfl (fun i hi => ?_)
  split
  swap
  · rfl
  rename_i ha
  refine sum_congr rfl (fun c hc => ?_)
  rw [mem_range] at hi hc
  have hcol := hv.2 e he i hi ha c hc o ho hao d hd q hq
  rw [hcol, hmix]
  rw [sum_unit hi ha hc hq]
  · congr 1
    unfold Meaning.mix
    rw [if_pos ⟨hi, hlt i c hc⟩, if_pos ha]
  · intro j hj haj x hx
    unfold Meaning.mix
    rw [if_pos ⟨hj, hx⟩, if_pos haj]

theorem inArr_mix (S : Meaning α) (op : Oper α) (L : Nat → Nat → α) (inv : VPtr) (e : Nat) :
    S.inArr op L inv e = S.mix op L e (S.inVal op L inv e) := by
  funext i x
  unfold Meaning.inArr Meaning.mix
  split
  · split
    · rfl
    · rename_i ha
      unfold Meaning.inVal
      have hp : (op.inp i).vec.ptr inv = (op.inp i).vec.ptr .null := by
        rcases hv : (op.inp i).vec with _ | _ | _
        · exact absurd hv ha
        · rfl
        · rfl
      simp only [hp]
  · rfl

/-- In particular what the operator computes at the quadrature points when it is applied to any vector (see C37). -/
theorem C43_apply {op : Oper α} {S : Meaning α} (hlin : LinearQF op) {L : Nat → Nat → α} {v : Buf α}
    (hv : Columns op S L v) (inv : VPtr) {e : Nat} (he : e < op.ne) {o d q : Nat} (ho : o < op.nout)
    (hao : (op.out o).vec = .active) (hd : d < (op.out o).size) (hq : q < op.Q) :
    S.outArr op L inv e o (d * op.Q + q) = ∑ i ∈ range op.nin, if (op.inp i).vec = .active then
      ∑ c ∈ range (op.inp i).size, v.val (op.apos e i c o d q) * S.inVal op L inv e i (c * op.Q + q) else 0 := by
  have := C43_action hlin hv he (S.inVal op L inv e) ho hao hd hq
  rw [← inArr_mix] at this
  exact this

/-- The positions are all different and fill the vector: the matrix entries do not overlap. -/
theorem C43_layout {op : Oper α} {e i c o d q e' i' c' o' d' q' : Nat} (hi : i < op.nin) (ha : (op.inp i).vec = .active)
    (hc : c < (op.inp i).size) (ho : o < op.nout) (hao : (op.out o).vec = .active) (hd : d < (op.out o).size)
    (hq : q < op.Q) (hi' : i' < op.nin) (ha' : (op.inp i').vec = .active) (hc' : c' < (op.inp i').size)
    (ho' : o' < op.nout) (hao' : (op.out o').vec = .active) (hd' : d' < (op.out o').size) (hq' : q' < op.Q)
    (h : op.apos e i c o d q = op.apos e' i' c' o' d' q') : e = e' ∧ i = i' ∧ c = c' ∧ o = o' ∧ d = d' ∧ q = q' := by
  have uniq : ∀ {f : Nat → OField α} {i i' c c' : Nat}, (f i).vec = .active → (f i').vec = .active → c < (f i).size →
      c' < (f i').size → offset f i + c = offset f i' + c' → i = i' ∧ c = c' := by
    intro f i i' c c' a1 a2 a3 a4 he
    rcases Nat.lt_trichotomy i i' with hh | hh | hh
    · have := offset_add_lt f hh a1 a3; omega
    · subst hh; exact ⟨rfl, by omega⟩
    · have := offset_add_lt f hh a2 a4; omega
  have dec : ∀ {a b n x y : Nat}, x < n → y < n → a * n + x = b * n + y → a = b ∧ x = y := by
    intro a b n x y hx hy he
    have h1 : (a * n + x) / n = a := (div_eq_iff_slot (by omega)).2 ⟨by omega, by omega⟩
    have h2 : (b * n + y) / n = b := (div_eq_iff_slot (by omega)).2 ⟨by omega, by omega⟩
    have hab : a = b := by rw [← h1, ← h2, he]
    subst hab
    exact ⟨rfl, by omega⟩
  unfold Oper.apos at h
  obtain ⟨h1, hqq⟩ := dec hq hq' h
  obtain ⟨h2, h3⟩ := dec (offset_add_lt op.out ho hao hd) (offset_add_lt op.out ho' hao' hd') h1
  obtain ⟨h4, h5⟩ := dec (offset_add_lt op.inp hi ha hc) (offset_add_lt op.inp hi' ha' hc') h2
  obtain ⟨h6, h7⟩ := uniq ha ha' hc hc' h5
  obtain ⟨h8, h9⟩ := uniq hao hao' hd hd' h3
  exact ⟨h4, h6, h7, h8, h9, hqq⟩

/-! ## Applications after assemblies -/

/-- Assemblies do not disturb applications: after any history of both, failed calls included, a successful
`CeedOperatorApplyAdd` adds the action of the operator on the current contents of the vectors. -/
theorem C37_after_assembly {op : Oper α} {S : Meaning α} (h : OpOK op S) {s s' : ASt α} (hr : AReach op True s)
    {junk : Nat → Nat → α} {inv outv : VPtr} (e : liftS (applyAdd op junk inv outv) s = .ok s' ()) :
    (∀ v t, s'.st.L v t = s.st.L v t + S.action op s.st.L inv outv v t) ∧
    ∀ v, (∀ o < op.nout, (op.out o).vec.ptr outv ≠ .vec v) → s'.st.vecs v = s.st.vecs v := by
  obtain ⟨t, e', rfl⟩ := liftS_eq_ok e
  have := M.wp_ok (applyAdd_wp h _ (hr.good h).1 (R := False) (fun hh => hh.elim)) e'
  exact ⟨this.2.2.2.2.2.2, this.2.2.2.1⟩

/-- The result of an application does not depend on the history, assemblies included. -/
theorem C39_assembly_history {op : Oper α} {S : Meaning α} (h : OpOK op S) {s s' f f' : ASt α} (hr : AReach op True s)
    (hf : AReach op True f) (hL : s.st.L = f.st.L) {junk junk' : Nat → Nat → α} {inv outv : VPtr}
    (e : liftS (applyAdd op junk inv outv) s = .ok s' ()) (e' : liftS (applyAdd op junk' inv outv) f = .ok f' ()) :
    s'.st.L = f'.st.L := by
  funext v t
  rw [(C37_after_assembly h hr e).1, (C37_after_assembly h hf e').1, hL]

/-- Without failing calls, applications after assemblies succeed as they do otherwise. -/
theorem C37_after_assembly_succeeds {op : Oper α} {S : Meaning α} (h : OpOK op S) {s : ASt α} (hr : AReach op False s)
    (junk : Nat → Nat → α) {inv outv : VPtr} (hne : 0 < op.ne) :
    (∃ s', liftS (applyAdd op junk inv outv) s = .ok s' ()) ↔ InReady op inv s.st ∧ OutReady op outv s.st := by
  obtain ⟨g1, _, g3⟩ := hr.good h
  constructor
  · rintro ⟨s', e⟩
    obtain ⟨t, e', rfl⟩ := liftS_eq_ok e
    exact (M.wp_ok (applyAdd_wp h _ g1 (R := False) (fun hh => hh.elim)) e').2.2.1 hne
  · intro hrdy
    have := applyAdd_wp h junk g1 (inv := inv) (outv := outv) (R := True)
      (fun _ => ⟨hrdy.1, hrdy.2, g3 (fun hh => hh)⟩)
    cases e : applyAdd op junk inv outv s.st with
    | ok s' a => exact ⟨_, liftS_ok e⟩
    | err s' c => exact absurd trivial (M.wp_err this e).1
    | ub => exact absurd trivial (M.wp_ub this e)

/-! ## Examples -/

/-- The operator of the application examples before any call. -/
def exA : ASt Int := ⟨exStart, 0, 0, none, false, false, ⟨0, fun _ => 0⟩, 0⟩

theorem exOp_separate : Separate exOp := by
  intro i hi j hj hij ha hb hm
  have hi' : i < 4 := hi
  rcases (by omega : i = 0 ∨ i = 1 ∨ i = 2 ∨ i = 3) with rfl | rfl | rfl | rfl
  · cases ha
  · cases ha
  · cases hm
  · cases hm

theorem exA_unassembled : Unassembled exOp exA := ⟨exStart_reach True, rfl, rfl, rfl, exOp_separate⟩

/-- State and vector after an assembly. -/
def asmState (x : Out (ASt Int) (Buf Int)) : ASt Int :=
  match x with
  | .ok s _ => s
  | _ => exA
def asmVec (x : Out (ASt Int) (Buf Int)) : Option (List Int) :=
  match x with
  | .ok _ v => some v.toList
  | _ => none
/-- State after an application. -/
def appState (x : Out (ASt Int) Unit) : ASt Int :=
  match x with
  | .ok s _ => s
  | _ => exA

/-- The QFunction of the example is linear in its active inputs (interpolated values and gradients). -/
theorem exOp_linear : LinearQF exOp := by
  intro p o ho hao d hd q hq
  have ho' : o < 2 := ho
  have hq' : q < 1 := hq
  have hq0 : q = 0 := by omega
  subst hq0
  have hd0 : d = 0 := by
    have : d < 1 := by
      rcases (by omega : o = 0 ∨ o = 1) with rfl | rfl <;> exact hd
    omega
  subst hd0
  refine ⟨fun i _ => if o = 0 then (if i = 2 then p 0 0 * p 1 0 else 0) else (if i = 3 then p 0 0 else 0), ?_⟩
  intro u hu _
  have h0 := hu 0 0 (by decide)
  have h1 := hu 1 0 (by decide)
  show (if o = 0 then u 0 0 * u 1 0 * u 2 0 else u 0 0 * u 3 0) = ∑ i ∈ range 4, _
  rw [h0, h1]
  rcases (by omega : o = 0 ∨ o = 1) with rfl | rfl
  · simp [sum_range_succ, exOp]
  · simp [sum_range_succ, exOp]

example : 0 < exOp.cIn ∧ 0 < exOp.cOut ∧ PassiveReady exOp exA.st := by
  refine ⟨by decide, by decide, ?_⟩
  intro i hi hw ha
  have hi' : i < 4 := hi
  rcases (by omega : i = 0 ∨ i = 1 ∨ i = 2 ∨ i = 3) with rfl | rfl | rfl | rfl
  · exact ⟨1, 2, rfl, rfl, rfl, by decide⟩
  · exact absurd rfl hw
  · exact absurd rfl ha
  · exact absurd rfl ha

/-- Matrices `diag(3, 1)` and `diag(30, 10)` at the quadrature points, also when assembled twice. -/
example : asmVec (assembleQF exOp (fun _ _ => 0) exA) = some [3, 0, 0, 1, 30, 0, 0, 10] ∧
    asmVec (assembleQF exOp (fun _ _ => 0) (asmState (assembleQF exOp (fun _ _ => 0) exA))) =
      some [3, 0, 0, 1, 30, 0, 0, 10] := by decide +kernel

/-- After an application, the first assembly is right. -/
example : asmVec (assembleQF exOp (fun _ _ => 0)
    (appState (liftS (apply exOp (fun _ _ => 0) (.vec 0) (.vec 1)) exA))) = some [3, 0, 0, 1, 30, 0, 0, 10] := by
  decide +kernel

/-- C43 fails when the operator is applied between two assemblies: the values of the active inputs left by the application
are set to zero in the first assembly only (line 505), so the first columns of the first element are wrong. The vectors
have not changed (except the output of the application). -/
theorem C43_stale_witness :
    let s1 := asmState (assembleQF exOp (fun _ _ => 0) exA)
    let s2 := appState (liftS (apply exOp (fun _ _ => 0) (.vec 0) (.vec 1)) s1)
    asmVec (assembleQF exOp (fun _ _ => 0) exA) = some [3, 0, 0, 1, 30, 0, 0, 10] ∧
    asmVec (assembleQF exOp (fun _ _ => 0) s2) = some [3, 2, 0, 1, 30, 0, 0, 10] ∧
    asmVec (buildOrUpdate exOp (fun _ _ => 0) s2) = some [3, 2, 0, 1, 30, 0, 0, 10] := by
  decide +kernel

/-- One quadrature point, one node, everything one. -/
def oneBasis : Basis.Bas Int :=
  { exBasis with P := 1, qWeight := ⟨1, fun _ => 1⟩, interp := some ⟨1, fun _ => 1⟩, grad := some ⟨1, fun _ => 1⟩ }

/-- An active input with a basis and two active inputs without basis, all on the same restriction; the QFunction returns
the first plus ten times the second plus a hundred times the third. -/
def twinOp : Oper Int :=
  { exOp with nin := 3, nout := 1,
              inp := fun i => if i = 0 then ⟨.active, some 1, some oneBasis, .interp, 1⟩ else ⟨.active, some 1, none, .none, 1⟩,
              out := fun _ => ⟨.active, some 1, none, .none, 1⟩, f := fun x _ q => x 0 q + 10 * x 1 q + 100 * x 2 q }

/-- C43 fails for active inputs without basis that share a restriction, once the operator has been applied: their data are
then the same part of the same E-vector (`ceed-ref-operator.c` 275-277), so a one set in the first is seen in the second,
and both columns are the sum of the two. -/
theorem C43_shared_witness :
    asmVec (assembleQF twinOp (fun _ _ => 0) exA) = some [1, 10, 100, 1, 10, 100] ∧
    asmVec (assembleQF twinOp (fun _ _ => 0)
      (appState (liftS (apply twinOp (fun _ _ => 0) (.vec 0) (.vec 1)) exA))) = some [1, 110, 110, 1, 110, 110] := by
  decide +kernel

/-- Sizes: two components each. -/
example : exOp.cIn = 2 ∧ exOp.cOut = 2 ∧ exOp.apos 1 3 0 1 0 0 = 7 := by decide

/-- Error codes of an assembly. -/
def asmErr (x : Out (ASt Int) (Buf Int)) : Option Err :=
  match x with
  | .err _ e => some e
  | _ => none

/-- No active inputs; only restriction; no active outputs. -/
example : asmErr (assembleQF { exOp with nin := 2 } (fun _ _ => 0) exA) = some .backend ∧
    asmErr (assembleQF idOp (fun _ _ => 0) exA) = some .backend ∧
    asmErr (assembleQF { exOp with nout := 0 } (fun _ _ => 0) exA) = some .backend := by decide +kernel

end Operator
end Verif
