import Verif.Operator.OptAsmRun
import Verif.Operator.AssembleProps
import Verif.Operator.OptExamples

/-!
# C72: the assembled QFunction on backends that work on blocks of elements
-/

set_option linter.unusedSectionVars false

namespace Verif
namespace Operator

open Finset

variable {α : Type} [CommRing α]

theorem BUnassembled.good {op : Oper α} {S : Meaning α} {F : Nat → (Nat → Nat → α) → Nat → Nat → α} {chk : Bool} {bs : Nat}
    (h : OptOK op S bs) {s : BSt α} (hs : BUnassembled op F chk bs s) :
    OptGood op S bs s.o ∧ BData op bs s ∧ BSound op F bs s := by
  obtain ⟨a1, a2, a3, a4, a5, a6⟩ := hs
  exact ⟨(a1.good h).1, ⟨⟨Or.inl a2, Or.inl a3, fun v hv => by rw [a4] at hv; cases hv⟩,
    fun hh => (by rw [a5] at hh; cases hh), fun r hh => (by rw [a6] at hh; cases hh)⟩, Or.inl a2⟩

/-- After any history of applications, failed calls included, the first assembly on a backend with blocks, and every later
one as long as the operator is not applied again, returns the values of the QFunction on all unit inputs, with the passive
inputs as the vectors are at the time of the call, for every block size, whether or not it divides the number of elements.
(The property asks for this also with applications in between, and for active inputs without basis that share a
restriction, for which it is false: `C72_stale_witness`, `C72_shared_witness`.) -/
theorem C72_columns_partial {op : Oper α} {S : Meaning α} {bs : Nat} (h : OptOK op S bs) (hsep : Separate op)
    {F : Nat → (Nat → Nat → α) → Nat → Nat → α} (hF : Pointwise op F) {chk : Bool} {s s1 s2 : BSt α}
    (hs : BUnassembled op F chk bs s) (hn : BNoApply op F chk bs s s1) {junk : Nat → Nat → α} {v : Buf α}
    (e : assembleQFOpt op F chk bs junk s1 = .ok s2 v) : Columns op S s1.a.st.L v := by
  obtain ⟨g1, g2, g3⟩ := hs.good h
  obtain ⟨b1, b2, b3⟩ := hn.sound h hsep g1 g2 g3
  exact ((M.wp_ok (assembleCoreOpt_wp h hsep F chk _ b1 b2 (by intro n hn; cases hn) (R := False) (fun hh => hh.elim)) e).cols
    b3).2 hF

/-- If the active inputs have a single component in total, every assembly is right, after any history of applications and
assemblies. -/
theorem C72_columns_single {op : Oper α} {S : Meaning α} {bs : Nat} (h : OptOK op S bs) (hsep : Separate op)
    {F : Nat → (Nat → Nat → α) → Nat → Nat → α} (hF : Pointwise op F) (h1 : op.cIn = 1) {chk : Bool} {s s' : BSt α}
    (hs : BReach op F chk bs True s) {junk : Nat → Nat → α} {v : Buf α}
    (e : assembleQFOpt op F chk bs junk s = .ok s' v) : Columns op S s.a.st.L v := by
  obtain ⟨g1, g2, _⟩ := hs.good h hsep
  exact ((M.wp_ok (assembleCoreOpt_wp h hsep F chk _ g1 g2 (by intro n hn; cases hn) (R := False) (fun hh => hh.elim)) e).cols
    (Or.inr (Or.inl h1))).2 hF

/-- `CeedOperatorLinearAssembleQFunctionBuildOrUpdate` returns the same when it assembles, that is the first time, if
reuse is off (the default), or if an update has been requested. (Missing: applications in between and shared
restrictions.) -/
theorem C72_build_partial {op : Oper α} {S : Meaning α} {bs : Nat} (h : OptOK op S bs) (hsep : Separate op)
    {F : Nat → (Nat → Nat → α) → Nat → Nat → α} (hF : Pointwise op F) {chk : Bool} {s s1 s2 : BSt α}
    (hs : BUnassembled op F chk bs s) (hn : BNoApply op F chk bs s s1)
    (hf : s1.a.built = none ∨ s1.a.reuse = false ∨ s1.a.needs = true) {junk : Nat → Nat → α} {v : Buf α}
    (e : buildOrUpdateOpt op F chk bs junk s1 = .ok s2 v) : Columns op S s1.a.st.L v := by
  obtain ⟨g1, g2, g3⟩ := hs.good h
  obtain ⟨b1, b2, b3⟩ := hn.sound h hsep g1 g2 g3
  rcases M.wp_ok (buildOpt_wp h hsep F chk _ b1 b2 (R := False) (fun hh => hh.elim)) e with ⟨_, s3, hA, _⟩ | ⟨hh, _⟩
  · exact (hA.cols b3).2 hF
  · exact absurd hf hh

theorem BReach.keeps {op : Oper α} {F : Nat → (Nat → Nat → α) → Nat → Nat → α} {chk : Bool} {bs : Nat} {fails : Prop}
    {s s' : BSt α} (hs : BReach op F chk bs fails s) (hk : BKeeps op F chk bs s s') : BReach op F chk bs fails s' := by
  induction hk with
  | refl => exact hs
  | user _ ha ih => exact .user ih ha
  | apply _ e ih => exact .apply ih e
  | applyAdd _ e ih => exact .applyAdd ih e
  | assemble _ e ih => exact .assemble ih e
  | build _ e ih => exact .build ih e

/-- With reuse, the vector assembled once is returned again, whatever happens, until an update is requested. -/
theorem C72_reuse {op : Oper α} {S : Meaning α} {bs : Nat} (h : OptOK op S bs) (hsep : Separate op)
    {F : Nat → (Nat → Nat → α) → Nat → Nat → α} {chk : Bool} {s s1 s2 : BSt α} (hs : BReach op F chk bs True s)
    (hr : s.a.reuse = true) {junk junk' : Nat → Nat → α} {v : Buf α} (e : buildOrUpdateOpt op F chk bs junk s = .ok s1 v)
    (hk : BKeeps op F chk bs s1 s2) : ∃ s3, buildOrUpdateOpt op F chk bs junk' s2 = .ok s3 v := by
  have h1 : s1.a.built = some v ∧ s1.a.reuse = true ∧ s1.a.needs = false := by
    obtain ⟨g1, g2, _⟩ := hs.good h hsep
    rcases M.wp_ok (buildOpt_wp h hsep F chk _ g1 g2 (R := False) (fun hh => hh.elim)) e with ⟨_, s3, hA, rfl⟩ | ⟨_, hb, rfl⟩
    · exact ⟨rfl, hA.reuse.trans hr, rfl⟩
    · exact ⟨hb, hr, rfl⟩
  have hs1 : BReach op F chk bs True s1 := .build hs e
  have h2 : s2.a.built = some v ∧ s2.a.reuse = true ∧ s2.a.needs = false := by
    clear e hs
    induction hk with
    | refl => exact h1
    | user _ _ ih => exact ih
    | apply _ e ih => obtain ⟨t, _, rfl⟩ := liftO_eq_ok e; exact ih
    | applyAdd _ e ih => obtain ⟨t, _, rfl⟩ := liftO_eq_ok e; exact ih
    | assemble hk e ih =>
      obtain ⟨g1, g2, _⟩ := (hs1.keeps hk).good h hsep
      have hA := M.wp_ok (assembleCoreOpt_wp h hsep F chk _ g1 g2 (by intro n hn; cases hn) (R := False) (fun hh => hh.elim)) e
      exact ⟨hA.built.trans ih.1, hA.reuse.trans ih.2.1, hA.needs.trans ih.2.2⟩
    | build hk e ih =>
      obtain ⟨g1, g2, _⟩ := (hs1.keeps hk).good h hsep
      rcases M.wp_ok (buildOpt_wp h hsep F chk _ g1 g2 (R := False) (fun hh => hh.elim)) e with ⟨hf, _⟩ | ⟨_, hb, rfl⟩
      · rcases hf with hf | hf | hf
        · rw [ih.1] at hf; cases hf
        · rw [ih.2.1] at hf; cases hf
        · rw [ih.2.2] at hf; cases hf
      · exact ⟨ih.1, ih.2.1, rfl⟩
  refine ⟨{ s2 with a := { s2.a with needs := false } }, ?_⟩
  unfold buildOrUpdateOpt currentQFOpt
  simp only [M.bind_apply, getBS, Out.bind_ok, h2.1, h2.2.1, h2.2.2]
  simp only [Bool.true_eq_false, Bool.false_eq_true, or_self, if_false, M.pure_apply, Out.bind_ok, liftAB, modA, h2.2.1]

/-- Calls that request an update: `CeedOperatorSetQFunctionAssemblyReuse` (on or off) and
`CeedOperatorSetQFunctionAssemblyDataUpdateNeeded(true)`. The next `BuildOrUpdate` assembles. (Missing: applications in
between and shared restrictions.) -/
theorem C72_update_partial {op : Oper α} {S : Meaning α} {bs : Nat} (h : OptOK op S bs) (hsep : Separate op)
    {F : Nat → (Nat → Nat → α) → Nat → Nat → α} (hF : Pointwise op F) {chk : Bool} {s s1 s2 s3 : BSt α}
    (hs : BUnassembled op F chk bs s) (hn : BNoApply op F chk bs s s1)
    (hu : (∃ b, liftAB (setReuse b) s1 = .ok s2 ()) ∨ liftAB (setNeeds true) s1 = .ok s2 ()) {junk : Nat → Nat → α}
    {v : Buf α} (e : buildOrUpdateOpt op F chk bs junk s2 = .ok s3 v) : Columns op S s1.a.st.L v := by
  rcases hu with ⟨b, hb⟩ | hb
  · have hn2 : BNoApply op F chk bs s s2 := .reuse hn hb
    simp only [liftAB, setReuse, modA, Out.ok.injEq, and_true] at hb
    subst hb
    exact C72_build_partial h hsep hF hs hn2 (Or.inr (Or.inr rfl)) e
  · have hn2 : BNoApply op F chk bs s s2 := .needs hn hb
    simp only [liftAB, setNeeds, modA, Out.ok.injEq, and_true] at hb
    subst hb
    exact C72_build_partial h hsep hF hs hn2 (Or.inr (Or.inr rfl)) e

/-- An assembly changes no vector. -/
theorem C72_vectors {op : Oper α} {S : Meaning α} {bs : Nat} (h : OptOK op S bs) (hsep : Separate op)
    {F : Nat → (Nat → Nat → α) → Nat → Nat → α} {chk : Bool} {s s' : BSt α} (hs : BReach op F chk bs True s)
    {junk : Nat → Nat → α} {v : Buf α} (e : assembleQFOpt op F chk bs junk s = .ok s' v) : s'.a.st.vecs = s.a.st.vecs := by
  obtain ⟨g1, g2, _⟩ := hs.good h hsep
  exact (M.wp_ok (assembleCoreOpt_wp h hsep F chk _ g1 g2 (by intro n hn; cases hn) (R := False) (fun hh => hh.elim)) e).vecs

/-- After a history without failing calls, an assembly succeeds exactly if the passive inputs hold data and are long
enough, there are active inputs and outputs and quadrature points, and the operator does more than restrict and scatter;
no undefined behaviour occurs then. -/
theorem C72_succeeds {op : Oper α} {S : Meaning α} {bs : Nat} (h : OptOK op S bs) (hsep : Separate op)
    {F : Nat → (Nat → Nat → α) → Nat → Nat → α} {chk : Bool} {s : BSt α} (hs : BReach op F chk bs False s)
    (junk : Nat → Nat → α) : (∃ s' v, assembleQFOpt op F chk bs junk s = .ok s' v) ↔
      PassiveReady op s.a.st ∧ 0 < op.cIn ∧ 0 < op.cOut ∧ 0 < op.Q ∧
        ¬ (op.isId = true ∧ (op.inp 0).mode = .none ∧ (op.out 0).mode = .none) := by
  obtain ⟨g1, g2, g3⟩ := hs.good h hsep
  constructor
  · rintro ⟨s', v, e⟩
    have hA := M.wp_ok (assembleCoreOpt_wp h hsep F chk _ g1 g2 (by intro n hn; cases hn) (R := False) (fun hh => hh.elim)) e
    exact ⟨hA.ready, hA.pin, hA.pout, hA.pq, hA.notId⟩
  · rintro ⟨a1, a2, a3, a4, a5⟩
    have := assembleCoreOpt_wp h hsep F chk junk g1 g2 (len := none) (by intro n hn; cases hn) (R := True)
      (fun _ => ⟨a1, g3 (fun hh => hh), a2, a3, a4, a5⟩)
    cases e : assembleQFOpt op F chk bs junk s with
    | ok s' v => exact ⟨s', v, rfl⟩
    | err s' c => exact absurd trivial (M.wp_err this e).1
    | ub => exact absurd trivial (M.wp_ub this e)

/-- Once an assembly has succeeded, later ones do as well, whatever is called in between, as long as the passive vectors
hold data. -/
theorem C72_again {op : Oper α} {S : Meaning α} {bs : Nat} (h : OptOK op S bs) (hsep : Separate op)
    {F : Nat → (Nat → Nat → α) → Nat → Nat → α} {chk : Bool} {s s1 s2 : BSt α} (hs : BReach op F chk bs False s)
    {junk junk' : Nat → Nat → α} {v : Buf α} (e : assembleQFOpt op F chk bs junk s = .ok s1 v)
    (hk : BKeeps op F chk bs s1 s2) (hp : PassiveReady op s2.a.st) :
    ∃ s3 v', assembleQFOpt op F chk bs junk' s2 = .ok s3 v' := by
  have h2 : BReach op F chk bs False s2 := (BReach.assemble hs e).keeps hk
  have h1 := (C72_succeeds h hsep hs junk).1 ⟨_, _, e⟩
  exact (C72_succeeds h hsep h2 junk').2 ⟨hp, h1.2⟩

/-- The result is that of the reference backend (C43). -/
theorem C72_as_reference {op : Oper α} {S : Meaning α} {bs : Nat} (h : OptOK op S bs) (hsep : Separate op)
    {F : Nat → (Nat → Nat → α) → Nat → Nat → α} (hF : Pointwise op F) {chk : Bool} {s s1 s2 : BSt α}
    (hs : BUnassembled op F chk bs s) (hn : BNoApply op F chk bs s s1) {junk junk' : Nat → Nat → α} {v w : Buf α}
    (e : assembleQFOpt op F chk bs junk s1 = .ok s2 v) {r r1 r2 : ASt α} (hr : Unassembled op r) (hrn : NoApply op r r1)
    (hv : r1.st.vecs = s1.a.st.vecs) (e' : assembleQF op junk' r1 = .ok r2 w) :
    v.len = w.len ∧ ∀ e < op.ne, ∀ i < op.nin, (op.inp i).vec = .active → ∀ c < (op.inp i).size, ∀ o < op.nout,
      (op.out o).vec = .active → ∀ d < (op.out o).size, ∀ q < op.Q,
      v.val (op.apos e i c o d q) = w.val (op.apos e i c o d q) := by
  have c1 := C72_columns_partial h hsep hF hs hn e
  have c2 := C43_columns_partial h.1 hr hrn e'
  have hL : r1.st.L = s1.a.st.L := by unfold St.L; rw [hv]
  rw [hL] at c2
  refine ⟨c1.1.trans c2.1.symm, fun e he i hi ha c hc o ho hao d hd q hq => ?_⟩
  rw [c1.2 e he i hi ha c hc o ho hao d hd q hq, c2.2 e he i hi ha c hc o ho hao d hd q hq]

/-- Assemblies do not disturb applications: after any history of both, failed calls included, a successful
`CeedOperatorApplyAdd` adds the action of the operator on the current contents of the vectors. -/
theorem C72_apply_after {op : Oper α} {S : Meaning α} {bs : Nat} (h : OptOK op S bs) (hsep : Separate op)
    {F : Nat → (Nat → Nat → α) → Nat → Nat → α} (hF : Pointwise op F) {chk : Bool} {s s' : BSt α}
    (hr : BReach op F chk bs True s) {junk : Nat → Nat → α} {inv outv : VPtr} (ha : ActiveApart op inv outv)
    (e : liftO (applyAddOpt op F chk bs junk inv outv) s = .ok s' ()) :
    (∀ v t, s'.a.st.L v t = s.a.st.L v t + S.action op s.a.st.L inv outv v t) ∧
    ∀ v, (∀ o < op.nout, (op.out o).vec.ptr outv ≠ .vec v) → s'.a.st.vecs v = s.a.st.vecs v := by
  obtain ⟨t, e', rfl⟩ := liftO_eq_ok e
  have := M.wp_ok (optAdd_wp h F chk _ (hr.good h hsep).1 (R := False) (fun hh => hh.elim)) e'
  exact ⟨this.2.2.2.2 ha hF, this.2.2.2.1.other⟩

/-- Without failing calls, applications after assemblies succeed as they do otherwise (C54). -/
theorem C72_apply_after_succeeds {op : Oper α} {S : Meaning α} {bs : Nat} (h : OptOK op S bs) (hsep : Separate op)
    {F : Nat → (Nat → Nat → α) → Nat → Nat → α} {chk : Bool} {s : BSt α} (hr : BReach op F chk bs False s)
    (junk : Nat → Nat → α) {inv outv : VPtr} (hne : 0 < op.ne) :
    (∃ s', liftO (applyAddOpt op F chk bs junk inv outv) s = .ok s' ()) ↔
      OptInReady op inv s.a.st ∧ OptOutReady op outv s.a.st := by
  obtain ⟨g1, _, g3⟩ := hr.good h hsep
  constructor
  · rintro ⟨s', e⟩
    obtain ⟨t, e', rfl⟩ := liftO_eq_ok e
    exact (M.wp_ok (optAdd_wp h F chk _ g1 (R := False) (fun hh => hh.elim)) e').2.2.1 hne
  · intro hrdy
    have := optAdd_wp h F chk junk g1 (inv := inv) (outv := outv) (R := True)
      (fun _ => ⟨hrdy.1, hrdy.2, g3 (fun hh => hh)⟩)
    cases e : applyAddOpt op F chk bs junk inv outv s.o with
    | ok s' a => exact ⟨_, liftO_ok e⟩
    | err s' c => exact absurd trivial (M.wp_err this e).1
    | ub => exact absurd trivial (M.wp_ub this e)

/-! ## Examples -/

/-- The operator of the application examples before any call. -/
def exB : BSt Int := ⟨exA, fun _ => exNodes, fun _ => ⟨0, fun _ => 7⟩, false, none, ⟨0, fun _ => 0⟩⟩

theorem exB_unassembled (chk : Bool) (bs : Nat) : BUnassembled exOp exF chk bs exB :=
  ⟨exOStart_reach chk bs True, rfl, rfl, rfl, rfl, rfl⟩

def asmStateB (x : Out (BSt Int) (Buf Int)) : BSt Int :=
  match x with
  | .ok s _ => s
  | _ => exB
def asmVecB (x : Out (BSt Int) (Buf Int)) : Option (List Int) :=
  match x with
  | .ok _ v => some v.toList
  | _ => none
def appStateB (x : Out (BSt Int) Unit) : BSt Int :=
  match x with
  | .ok s _ => s
  | _ => exB
def asmErrB (x : Out (BSt Int) (Buf Int)) : Option Err :=
  match x with
  | .err _ e => some e
  | _ => none

/-- One and eight elements per block: the matrices of the reference backend, also when assembled twice and with reuse. -/
example : asmVecB (assembleQFOpt exOp exF true 1 (fun _ _ => 0) exB) = some [3, 0, 0, 1, 30, 0, 0, 10] ∧
    asmVecB (assembleQFOpt exOp exF true 8 (fun _ _ => 0) exB) = some [3, 0, 0, 1, 30, 0, 0, 10] ∧
    asmVecB (assembleQFOpt exOp exF true 8 (fun _ _ => 0) (asmStateB (assembleQFOpt exOp exF true 8 (fun _ _ => 0) exB))) =
      some [3, 0, 0, 1, 30, 0, 0, 10] ∧
    asmVecB (buildOrUpdateOpt exOp exF true 8 (fun _ _ => 0) (asmStateB (buildOrUpdateOpt exOp exF true 8 (fun _ _ => 0) exB))) =
      some [3, 0, 0, 1, 30, 0, 0, 10] := by decide +kernel

/-- After an application, the first assembly is right. -/
example : asmVecB (assembleQFOpt exOp exF true 8 (fun _ _ => 0)
    (appStateB (liftO (applyOpt exOp exF true 8 (fun _ _ => 0) (.vec 0) (.vec 1)) exB))) =
      some [3, 0, 0, 1, 30, 0, 0, 10] := by decide +kernel

/-- No active inputs; only restriction; no active outputs. -/
example : asmErrB (assembleQFOpt { exOp with nin := 2 } exF true 8 (fun _ _ => 0) exB) = some .backend ∧
    asmErrB (assembleQFOpt idOp (fun _ x _ q => x 0 q) true 8 (fun _ _ => 0) exB) = some .backend ∧
    asmErrB (assembleQFOpt { exOp with nout := 0 } exF true 8 (fun _ _ => 0) exB) = some .backend := by decide +kernel

/-- An operator whose active inputs have a single component, after an application and an assembly. -/
example : OptOK { exOp with nin := 3 } exMeaning 8 ∧ Separate { exOp with nin := 3 } ∧ ({ exOp with nin := 3 } : Oper Int).cIn = 1 ∧
    Pointwise { exOp with nin := 3, f := fun x o q => x 0 q * x 1 q * x 2 q } (fun _ x _ q => x 0 q * x 1 q * x 2 q) := by
  refine ⟨⟨⟨fun i hi => exOp_ok.inp i (Nat.lt_succ_of_lt hi), exOp_ok.out,
    fun i j h1 h2 => exOp_ok.shareIn i j h1 (Nat.lt_succ_of_lt h2), exOp_ok.shareOut, fun h => by cases h⟩, by decide,
    fun i hi => (exOp_optOK (bs := 8) (by decide)).2.2 i (Nat.lt_succ_of_lt hi)⟩,
    fun i hi j hj => exOp_separate i (Nat.lt_succ_of_lt hi) j (Nat.lt_succ_of_lt hj), by decide,
    rfl, fun a o c => a 0 c * a 1 c * a 2 c, fun _ _ _ _ _ _ => rfl⟩

/-! ## Disagreements -/

/-- C72 fails when the operator is applied between two assemblies, as on the reference backend (`C43_stale_witness`): the
values of the active inputs left by the application are set to zero in the first assembly only
(`ceed-opt-operator.c` 550-565), so the first columns of the first block are wrong. -/
theorem C72_stale_witness :
    let s1 := asmStateB (assembleQFOpt exOp exF true 1 (fun _ _ => 0) exB)
    let s2 := appStateB (liftO (applyOpt exOp exF true 1 (fun _ _ => 0) (.vec 0) (.vec 1)) s1)
    let t1 := asmStateB (assembleQFOpt exOp exF true 8 (fun _ _ => 0) exB)
    let t2 := appStateB (liftO (applyOpt exOp exF true 8 (fun _ _ => 0) (.vec 0) (.vec 1)) t1)
    asmVecB (assembleQFOpt exOp exF true 1 (fun _ _ => 0) exB) = some [3, 0, 0, 1, 30, 0, 0, 10] ∧
    asmVecB (assembleQFOpt exOp exF true 1 (fun _ _ => 0) s2) = some [3, 2, 0, 1, 30, 0, 0, 10] ∧
    asmVecB (assembleQFOpt exOp exF true 8 (fun _ _ => 0) t2) = some [3, 1, 0, 1, 30, 20, 0, 10] := by
  decide +kernel

/-- The QFunction on any number of points. -/
def twinF : Nat → (Nat → Nat → Int) → Nat → Nat → Int := fun _ x _ q => x 0 q + 10 * x 1 q + 100 * x 2 q

/-- C72 fails for active inputs without basis that share a restriction: they share memory on these backends
(`ceed-opt-operator.c` 160-163, 300-306), so a one set in the first is seen in the second, and both columns are the sum
of the two. The reference backend separates them until the first application (`C43_shared_witness`). -/
theorem C72_shared_witness :
    asmVec (assembleQF twinOp (fun _ _ => 0) exA) = some [1, 10, 100, 1, 10, 100] ∧
    asmVecB (assembleQFOpt twinOp twinF true 1 (fun _ _ => 0) exB) = some [1, 110, 110, 1, 110, 110] ∧
    asmVecB (assembleQFOpt twinOp twinF true 8 (fun _ _ => 0) exB) = some [1, 110, 110, 1, 110, 110] := by
  decide +kernel

end Operator
end Verif
