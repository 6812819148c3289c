import Verif.Operator.PointBlock

/-!
# C44: diagonals
-/

set_option linter.unusedSectionVars false

namespace Verif
namespace Operator

open Finset
open Restriction (RData Made Rep Variant Rstr)

variable {α : Type} [CommRing α]

/-- A linear operator has a matrix, with as many columns as the active input has entries. -/
theorem C44_matrix {op : Oper α} {S : Meaning α} (h : OpOK op S) (hlin : LinearQF op) (L : Nat → Nat → α) {l : Int}
    (hs : SizeOK op op.inp op.nin l) : ∃ A, IsMatrix op S L l.toNat A := by
  obtain ⟨v, hv⟩ := exists_columns op S L
  exact ⟨_, isMatrix_form h hlin hv (fun i hi ha r hr => by rw [hs i hi ha r hr]; omega)⟩

/-! ## The run -/

/-- The loop over the pairs of bases. -/
def diagLoop (op : Oper α) (p : Prec α) (pb checked : Bool) (v : Buf α) (out : Nat) : M (ASt α) Unit :=
  forEach (basisPairs (asmData p op.inp p.inB op.nin).1 (asmData p op.out p.outB op.nout).1)
    (diagPair op p pb checked op.cOut v (op.cIn * op.cOut) out)

theorem build_data {op : Oper α} {S : Meaning α} (h : OpOK op S) {junk : Nat → Nat → α} {s s1 : ASt α} {v : Buf α}
    (hg : Good op S s.st) (hd : AData op s) (e : buildOrUpdate op junk s = .ok s1 v) :
    s1.szIn = op.cIn ∧ s1.szOut = op.cOut ∧ v.len = op.alen ∧ s1.st.vecs = s.st.vecs := by
  rcases M.wp_ok (buildOrUpdate_wp h _ hg hd (R := False) (fun hh => hh.elim)) e with ⟨_, s3, hA, rfl⟩ | ⟨_, hb, rfl⟩
  · exact ⟨hA.sin, hA.sout, hA.len, hA.vecs⟩
  · obtain ⟨h1, h2, h3, _⟩ := hd.built v hb
    exact ⟨h2, h3, h1, rfl⟩

theorem mesh_eq {op : Oper α} {p : Prec α} {pb checked : Bool} {junk : Nat → Nat → α} {out : Nat} {s s1 : ASt α}
    {v : Buf α} (hc : (asmData p op.out p.outB op.nout).2 = op.cOut) (h1 : s1.szIn = op.cIn) (h2 : s1.szOut = op.cOut)
    (e : buildOrUpdate op junk s = .ok s1 v) :
    addDiagonalMesh op p pb checked junk out s = diagLoop op p pb checked v out s1 := by
  unfold addDiagonalMesh
  refine (congrArg (fun x : Out (ASt α) (Buf α) => x.bind _) e).trans ?_
  show forEach _ (diagPair op p pb checked (asmData p op.out p.outB op.nout).2 v (s1.szIn * s1.szOut) out) s1 = _
  rw [hc, h1, h2, diagLoop]

theorem addDiagonal_eq {op : Oper α} {p : Prec α} {S : Meaning α} (h : OpOK op S) (hp : DiagOK op p S) {pb checked : Bool}
    {junk : Nat → Nat → α} {out : Nat} {s : ASt α} (hg : Good op S s.st) (hd : AData op s) :
    addDiagonal op p pb checked junk out s = if op.ne = 0 then .ok s () else
      (buildOrUpdate op junk s).bind (fun s1 v => diagLoop op p pb checked v out s1) := by
  have e0 : addDiagonal op p pb checked junk out s = if op.ne = 0 then .ok s () else
      addDiagonalMesh op p pb checked junk out s := by
    unfold addDiagonal
    rw [M.bind_apply, M.check, if_pos hp.square, Out.bind_ok]
    exact apply_ite (fun m : M (ASt α) Unit => m s) _ _ _
  refine e0.trans ?_
  refine ite_congr rfl (fun _ => rfl) (fun h0 => ?_)
  · cases e : buildOrUpdate op junk s with
    | ok s1 v =>
      obtain ⟨h1, h2, _⟩ := build_data h hg hd e
      exact mesh_eq (asm_out h hp).1 h1 h2 e
    | err s1 c =>
      unfold addDiagonalMesh
      rw [M.bind_apply, e, Out.bind_err, Out.bind_err]
    | ub =>
      unfold addDiagonalMesh
      rw [M.bind_apply, e, Out.bind_ub, Out.bind_ub]

theorem diagLoop_diag {op : Oper α} {p : Prec α} {S : Meaning α} (h : OpOK op S) (hp : DiagOK op p S) {checked : Bool}
    {out : Nat} {v : Buf α} (hv : v.len = op.alen) (s : ASt α) :
    (CanAdd s out p.inSize → ∃ s', diagLoop op p false checked v out s = .ok s' () ∧
      Plus out (fun t => S.form op v (fun x => if x = t then 1 else 0) t) s s') ∧
    (¬ CanAdd s out p.inSize → (diagLoop op p false checked v out s = .ok s () ∧
        ∀ t, S.form op v (fun x => if x = t then 1 else 0) t = 0) ∨
      ∃ c, diagLoop op p false checked v out s = .err s c) := by
  have key : ∀ ab ∈ basisPairs (asmData p op.inp p.inB op.nin).1 (asmData p op.out p.outB op.nout).1, ∀ s : ASt α,
      (CanAdd s out p.inSize → ∃ s', diagPair op p false checked op.cOut v (op.cIn * op.cOut) out ab s = .ok s' () ∧
        Plus out (contr op p S v ab.1.bid) s s') ∧
      (¬ CanAdd s out p.inSize → ∃ c, diagPair op p false checked op.cOut v (op.cIn * op.cOut) out ab s = .err s c) := by
    intro ab hab s
    obtain ⟨i, o, r, g⟩ := pairs_good h hp hab
    exact diagPair_ok h hp g hv checked
  constructor
  · intro hs
    obtain ⟨s', e1, e2⟩ := forEach_plus (C := fun ab => contr op p S v ab.1.bid)
      (fun ab hab s hs => (key ab hab s).1 hs) hs
    exact ⟨s', e1, e2.congr (fun t => contr_sum h hp v t)⟩
  · intro hs
    by_cases hl : basisPairs (asmData p op.inp p.inB op.nin).1 (asmData p op.out p.outB op.nout).1 = []
    · refine Or.inl ⟨by unfold diagLoop; rw [hl]; rfl, fun t => ?_⟩
      rw [← contr_sum h hp v t, hl]; rfl
    · exact Or.inr (forEach_err hl (fun ab hab => (key ab hab s).2 hs))

theorem diagLoop_block {op : Oper α} {p : Prec α} {S : Meaning α} (h : OpOK op S) (hp : DiagOK op p S) {β ρ : Nat}
    {node : Nat → Nat → Nat} (hb : BlockOK op p S β ρ node) {checked : Bool}
    {out : Nat} {v : Buf α} (hv : v.len = op.alen) (s : ASt α) :
    (CanAdd s out (p.inSize * (S.D ρ).nc) → ∃ s', diagLoop op p true checked v out s = .ok s' () ∧
      Plus out (blockContr op p S v β ρ node) s s') ∧
    (¬ CanAdd s out (p.inSize * (S.D ρ).nc) → ∃ c, diagLoop op p true checked v out s = .err s c) := by
  obtain ⟨ab, i, o, hl, g⟩ := block_pairs h hp hb
  have key := fun s : ASt α => diagPair_block h hp hb g hv checked (out := out) (s := s)
  unfold diagLoop
  rw [hl]
  constructor
  · intro hs
    obtain ⟨s', e1, e2⟩ := forEach_plus (l := [ab]) (C := fun _ => blockContr op p S v β ρ node)
      (fun x hx s hs => by rw [List.mem_singleton] at hx; subst hx; exact (key s).1 hs) hs
    exact ⟨s', e1, e2.congr (fun t => by simp)⟩
  · intro hs
    exact forEach_err (by simp) (fun x hx => by rw [List.mem_singleton] at hx; subst hx; exact (key s).2 hs)

/-- Nothing is added outside of the rows of the operator. -/
theorem form_out {op : Oper α} {p : Prec α} {S : Meaning α} (h : OpOK op S) (hp : DiagOK op p S) (v : Buf α) (u : Nat → α)
    {t : Nat} (ht : p.inSize ≤ t) : S.form op v u t = 0 := by
  unfold Meaning.form
  refine sum_eq_zero (fun o ho => ?_)
  rw [mem_range] at ho
  by_cases hA : (op.out o).vec = .active
  swap
  · rw [if_neg hA]
  rw [if_pos hA]
  refine sum_eq_zero (fun e he => sum_eq_zero (fun k hk => sum_eq_zero (fun n _ => sum_eq_zero (fun m hm => ?_))))
  rw [mem_range] at he hk hm
  obtain ⟨r, l, hr, hm', hne⟩ := (h.out o ho).active.1
  have hD : S.dat (op.out o) = S.D r := by unfold Meaning.dat; rw [hr]; rfl
  rw [hD] at hm hk ⊢
  have h1 := hm'.rep.1.rng e (by omega) m hm k hk
  have h2 := hp.outSize o ho hA r hr
  rw [hp.square] at ht
  rw [if_neg]
  intro hx
  rw [hx] at h1
  omega

theorem form_empty (S : Meaning α) {op : Oper α} (v : Buf α) (u : Nat → α) (t : Nat) (h0 : op.ne = 0) :
    S.form op v u t = 0 := by
  unfold Meaning.form
  rw [h0]
  simp

/-- What a successful call adds. -/
def Adding (op : Oper α) (junk : Nat → Nat → α) (out : Nat) (C : Buf α → Nat → α) (s s2 : ASt α) : Prop :=
  (op.ne = 0 ∧ s2 = s) ∨ (op.ne ≠ 0 ∧ ∃ s1 v, buildOrUpdate op junk s = .ok s1 v ∧ Plus out (C v) s1 s2)

theorem addDiagonal_ok {op : Oper α} {p : Prec α} {S : Meaning α} (h : OpOK op S) (hp : DiagOK op p S) {checked : Bool}
    {junk : Nat → Nat → α} {out : Nat} {s s2 : ASt α} (hg : Good op S s.st) (hd : AData op s)
    (e : addDiagonal op p false checked junk out s = .ok s2 ()) :
    Adding op junk out (fun v t => S.form op v (fun x => if x = t then 1 else 0) t) s s2 := by
  rw [addDiagonal_eq h hp hg hd] at e
  split at e
  · rename_i h0; cases e; exact Or.inl ⟨h0, rfl⟩
  · rename_i h0
    rcases e1 : buildOrUpdate op junk s with ⟨s1, v⟩ | ⟨s1, c⟩ | _
    · rw [e1, Out.bind_ok] at e
      obtain ⟨_, _, hl, _⟩ := build_data h hg hd e1
      obtain ⟨k1, k2⟩ := diagLoop_diag h hp (checked := checked) (out := out) hl s1
      refine Or.inr ⟨h0, s1, v, e1, ?_⟩
      by_cases hc : CanAdd s1 out p.inSize
      · obtain ⟨s', f1, f2⟩ := k1 hc
        rw [f1] at e; cases e; exact f2
      · rcases k2 hc with ⟨f1, f2⟩ | ⟨c, f1⟩
        · rw [f1] at e; cases e; exact Or.inl ⟨f2, rfl⟩
        · rw [f1] at e; cases e
    · rw [e1] at e; cases e
    · rw [e1] at e; cases e

theorem addBlock_ok {op : Oper α} {p : Prec α} {S : Meaning α} (h : OpOK op S) (hp : DiagOK op p S) {β ρ : Nat}
    {node : Nat → Nat → Nat} (hb : BlockOK op p S β ρ node) {checked : Bool}
    {junk : Nat → Nat → α} {out : Nat} {s s2 : ASt α} (hg : Good op S s.st) (hd : AData op s)
    (e : addDiagonal op p true checked junk out s = .ok s2 ()) :
    Adding op junk out (fun v => blockContr op p S v β ρ node) s s2 := by
  rw [addDiagonal_eq h hp hg hd] at e
  split at e
  · rename_i h0; cases e; exact Or.inl ⟨h0, rfl⟩
  · rename_i h0
    rcases e1 : buildOrUpdate op junk s with ⟨s1, v⟩ | ⟨s1, c⟩ | _
    · rw [e1, Out.bind_ok] at e
      obtain ⟨_, _, hl, _⟩ := build_data h hg hd e1
      obtain ⟨k1, k2⟩ := diagLoop_block h hp hb (checked := checked) (out := out) hl s1
      refine Or.inr ⟨h0, s1, v, e1, ?_⟩
      by_cases hc : CanAdd s1 out (p.inSize * (S.D ρ).nc)
      · obtain ⟨s', f1, f2⟩ := k1 hc
        rw [f1] at e; cases e; exact f2
      · obtain ⟨c, f1⟩ := k2 hc
        rw [f1] at e; cases e
    · rw [e1] at e; cases e
    · rw [e1] at e; cases e

theorem Adding.noApply {op : Oper α} {junk : Nat → Nat → α} {out : Nat} {C : Buf α → Nat → α}
    {s s1 s2 : ASt α} (h : Adding op junk out C s1 s2) (hn : NoApply op s s1) : NoApply op s s2 := by
  rcases h with ⟨_, rfl⟩ | ⟨_, s3, v, e, hp⟩
  · exact hn
  · obtain ⟨h1, h2⟩ := hp.adv
    rw [h2]
    exact .user (.build hn e) h1

theorem Adding.others {op : Oper α} {S : Meaning α} (h : OpOK op S) {junk : Nat → Nat → α} {out : Nat}
    {C : Buf α → Nat → α} {s s2 : ASt α} (hg : Good op S s.st) (hd : AData op s) (ha : Adding op junk out C s s2) {w : Nat}
    (hw : w ≠ out) : s2.st.vecs w = s.st.vecs w := by
  rcases ha with ⟨_, rfl⟩ | ⟨_, s3, v, e, hp⟩
  · rfl
  · rw [hp.other hw, (build_data h hg hd e).2.2.2]

theorem action_passive {op : Oper α} {S : Meaning α} {L L' : Nat → Nat → α}
    (hL : ∀ i < op.nin, ∀ w, (op.inp i).vec = .vec w → L' w = L w) {iv : Nat} (hiv : ∀ i < op.nin, (op.inp i).vec ≠ .vec iv)
    (ov : Nat) (u : Nat → α) (t : Nat) :
    S.action op (Function.update L' iv u) (.vec iv) (.vec ov) ov t =
      S.action op (Function.update L iv u) (.vec iv) (.vec ov) ov t := by
  refine action_congr ?_ _ _ _
  intro i hi _
  rcases hv : (op.inp i).vec with _ | _ | w
  · simp [FVec.ptr, cont]
  · simp [FVec.ptr, cont]
  · have hw : w ≠ iv := by rintro rfl; exact hiv i hi hv
    simp only [FVec.ptr, cont]
    rw [Function.update_of_ne hw, Function.update_of_ne hw, hL i hi w hv]

/-- A matrix depends only on the passive inputs. -/
theorem IsMatrix.congr {op : Oper α} {S : Meaning α} {L L' : Nat → Nat → α} {n : Nat} {A : Nat → Nat → α}
    (h : IsMatrix op S L n A) (hL : ∀ i < op.nin, ∀ w, (op.inp i).vec = .vec w → L' w = L w) : IsMatrix op S L' n A := by
  intro iv ov hiv hov u t
  rw [← h iv ov hiv hov u t]
  exact action_passive hL hiv ov u t

/-- What is added when the assembled QFunction holds the values of the QFunction for the vectors `L`. -/
theorem Adding.diag {op : Oper α} {p : Prec α} {S : Meaning α} (h : OpOK op S) (hp : DiagOK op p S) (hlin : LinearQF op)
    {junk : Nat → Nat → α} {out : Nat} {s s2 : ASt α} (hg : Good op S s.st) (hd : AData op s)
    (ha : Adding op junk out (fun v t => S.form op v (fun x => if x = t then 1 else 0) t) s s2) {L : Nat → Nat → α}
    (hv : ∀ s1 v, buildOrUpdate op junk s = .ok s1 v → Columns op S L v) {A : Nat → Nat → α}
    (hA : IsMatrix op S L p.inSize.toNat A) :
    (∀ t < p.inSize.toNat, s2.st.L out t = s.st.L out t + A t t) ∧
    (∀ t, p.inSize.toNat ≤ t → s2.st.L out t = s.st.L out t) ∧ ∀ w, w ≠ out → s2.st.vecs w = s.st.vecs w := by
  refine ⟨?_, ?_, fun w hw => ha.others h hg hd hw⟩
  · intro t ht
    rcases ha with ⟨h0, rfl⟩ | ⟨_, s3, v, e, hpl⟩
    · obtain ⟨v, hv⟩ := exists_columns op S L
      rw [hA.entry h hlin hv t ht, form_empty S v _ t h0, add_zero]
    · rw [hpl.vec, hA.entry h hlin (hv s3 v e) t ht]
      unfold St.L
      rw [(build_data h hg hd e).2.2.2]
  · intro t ht
    rcases ha with ⟨h0, rfl⟩ | ⟨_, s3, v, e, hpl⟩
    · rfl
    · rw [hpl.vec]
      refine Eq.trans (congrArg (s3.st.L out t + ·) (form_out h hp v _ (by omega : p.inSize ≤ t))) ?_
      rw [add_zero]
      unfold St.L
      rw [(build_data h hg hd e).2.2.2]

theorem Adding.block {op : Oper α} {p : Prec α} {S : Meaning α} (h : OpOK op S) (hp : DiagOK op p S) (hlin : LinearQF op)
    {β ρ : Nat} {node : Nat → Nat → Nat} (hb : BlockOK op p S β ρ node)
    {junk : Nat → Nat → α} {out : Nat} {s s2 : ASt α} (hg : Good op S s.st) (hd : AData op s)
    (ha : Adding op junk out (fun v => blockContr op p S v β ρ node) s s2) {L : Nat → Nat → α}
    (hv : ∀ s1 v, buildOrUpdate op junk s = .ok s1 v → Columns op S L v) {A : Nat → Nat → α}
    (hA : IsMatrix op S L p.inSize.toNat A) :
    (∀ a co ci, co < (S.D ρ).nc → ci < (S.D ρ).nc →
      ((op.rstrs ρ).compStride = 1 ∨ a < (op.rstrs ρ).compStride.toNat) →
      nodePos (op.rstrs ρ).compStride (S.D ρ).nc a ci < p.inSize.toNat →
      s2.st.L out (a * ((S.D ρ).nc * (S.D ρ).nc) + (co * (S.D ρ).nc + ci)) =
        s.st.L out (a * ((S.D ρ).nc * (S.D ρ).nc) + (co * (S.D ρ).nc + ci)) +
        A (nodePos (op.rstrs ρ).compStride (S.D ρ).nc a co) (nodePos (op.rstrs ρ).compStride (S.D ρ).nc a ci)) ∧
    (∀ a co ci, co < (S.D ρ).nc → ci < (S.D ρ).nc → (∀ e < op.ne, ∀ m < (S.D ρ).es, node e m ≠ a) →
      s2.st.L out (a * ((S.D ρ).nc * (S.D ρ).nc) + (co * (S.D ρ).nc + ci)) =
        s.st.L out (a * ((S.D ρ).nc * (S.D ρ).nc) + (co * (S.D ρ).nc + ci))) ∧
    ∀ w, w ≠ out → s2.st.vecs w = s.st.vecs w := by
  have hne : (S.D ρ).ne = op.ne := by
    obtain ⟨i, hi, ai⟩ := hb.some
    have := HasRstr.ne ((h.inp i hi).active ai).1
    unfold Meaning.dat at this
    rw [(hb.inB i hi ai).2] at this
    exact this
  refine ⟨?_, ?_, fun w hw => ha.others h hg hd hw⟩
  · intro a co ci hco hci hcs hlt
    rcases ha with ⟨h0, rfl⟩ | ⟨_, s3, v, e, hpl⟩
    · obtain ⟨v, hv⟩ := exists_columns op S L
      rw [hA.entry h hlin hv _ hlt, form_empty S v _ _ h0, add_zero]
    · rw [hpl.vec, hA.entry h hlin (hv s3 v e) _ hlt, form_block h hp hb hne v hcs hco hci]
      refine Eq.trans (congrArg (s3.st.L out _ + ·) (blockContr_at op p S v β ρ node hco hci)) ?_
      unfold St.L
      rw [(build_data h hg hd e).2.2.2]
  · intro a co ci hco hci hno
    rcases ha with ⟨h0, rfl⟩ | ⟨_, s3, v, e, hpl⟩
    · rfl
    · rw [hpl.vec]
      refine Eq.trans (congrArg (s3.st.L out _ + ·) (blockContr_at op p S v β ρ node hco hci)) ?_
      rw [sum_eq_zero, add_zero]
      · unfold St.L
        rw [(build_data h hg hd e).2.2.2]
      · intro e he
        refine sum_eq_zero (fun n hn => ?_)
        rw [if_neg (hno e (mem_range.1 he) n (mem_range.1 hn))]

/-! ## The properties -/

/-- `CeedOperatorLinearAssembleAddDiagonal` adds exactly the diagonal of the matrix of the operator, with the passive
inputs as the vectors are at the time of the call, and changes no other vector; after any history of applications followed
by anything but applications, diagonal assemblies included. (Missing: applications between assemblies, for which the
assembled QFunction may be wrong, `C43_stale_witness`; operators that are not `DiagOK`, see the witnesses.) -/
theorem C44_add_partial {op : Oper α} {p : Prec α} {S : Meaning α} (h : OpOK op S) (hp : DiagOK op p S) (hlin : LinearQF op)
    {s s1 s2 : ASt α} (hs : Unassembled op s) (hn : NoApply op s s1)
    (hf : s1.built = none ∨ s1.reuse = false ∨ s1.needs = true) {checked : Bool} {junk : Nat → Nat → α} {out : Nat}
    (e : addDiagonal op p false checked junk out s1 = .ok s2 ()) {A : Nat → Nat → α}
    (hA : IsMatrix op S s1.st.L p.inSize.toNat A) :
    ((∀ t < p.inSize.toNat, s2.st.L out t = s1.st.L out t + A t t) ∧
    (∀ t, p.inSize.toNat ≤ t → s2.st.L out t = s1.st.L out t) ∧ ∀ w, w ≠ out → s2.st.vecs w = s1.st.vecs w) ∧
    NoApply op s s2 := by
  obtain ⟨g1, g2, g3⟩ := hs.good h
  obtain ⟨b1, b2, _⟩ := hn.sound h g1 g2 g3
  have ha := addDiagonal_ok h hp b1 b2 e
  exact ⟨ha.diag h hp hlin b1 b2 (fun s3 v eb => C43_build_partial h hs hn hf eb) hA, ha.noApply hn⟩

/-- If the active inputs have one component in total (such as a mass operator of one component), applications in between
do no harm. -/
theorem C44_add_single_partial {op : Oper α} {p : Prec α} {S : Meaning α} (h : OpOK op S) (hp : DiagOK op p S)
    (hlin : LinearQF op) (hsep : Separate op) (h1 : op.cIn = 1) {s s2 : ASt α} (hs : AReach op True s)
    (hf : s.built = none ∨ s.reuse = false ∨ s.needs = true) {checked : Bool} {junk : Nat → Nat → α} {out : Nat}
    (e : addDiagonal op p false checked junk out s = .ok s2 ()) {A : Nat → Nat → α}
    (hA : IsMatrix op S s.st.L p.inSize.toNat A) :
    (∀ t < p.inSize.toNat, s2.st.L out t = s.st.L out t + A t t) ∧
    (∀ t, p.inSize.toNat ≤ t → s2.st.L out t = s.st.L out t) ∧ ∀ w, w ≠ out → s2.st.vecs w = s.st.vecs w := by
  obtain ⟨b1, b2, _⟩ := hs.good h
  have ha := addDiagonal_ok h hp b1 b2 e
  refine ha.diag h hp hlin b1 b2 (fun s3 v eb => ?_) hA
  rcases M.wp_ok (buildOrUpdate_wp h _ b1 b2 (R := False) (fun hh => hh.elim)) eb with ⟨_, s3, hB, _⟩ | ⟨hh, _⟩
  · exact (hB.cols ⟨hsep, Or.inr (Or.inl h1)⟩).1
  · exact absurd hf hh

/-- With reuse of the assembled QFunction, the diagonal is that of the operator at the time of its assembly, whatever
happens in between, applications included. -/
theorem C44_reuse_partial {op : Oper α} {p : Prec α} {S : Meaning α} (h : OpOK op S) (hp : DiagOK op p S)
    (hlin : LinearQF op) {s s1 s2 s3 s4 : ASt α} (hs : Unassembled op s) (h0 : AReach op True s) (hn : NoApply op s s1)
    (hf : s1.built = none ∨ s1.needs = true) (hr : s1.reuse = true)
    {junk junk' : Nat → Nat → α} {v : Buf α} (e : buildOrUpdate op junk s1 = .ok s2 v) (hk : KeepsFlags op s2 s3)
    {checked : Bool} {out : Nat} (e' : addDiagonal op p false checked junk' out s3 = .ok s4 ()) {A : Nat → Nat → α}
    (hA : IsMatrix op S s1.st.L p.inSize.toNat A) :
    (∀ t < p.inSize.toNat, s4.st.L out t = s3.st.L out t + A t t) ∧
    (∀ t, p.inSize.toNat ≤ t → s4.st.L out t = s3.st.L out t) ∧ ∀ w, w ≠ out → s4.st.vecs w = s3.st.vecs w := by
  have r1 : AReach op True s1 := by
    clear e hA hf hr
    induction hn with
    | refl => exact h0
    | user _ ha ih => exact .user ih ha
    | assemble _ e ih => exact .assemble ih e
    | build _ e ih => exact .build ih e
    | reuse _ e ih => exact .reuse ih e
    | needs _ e ih => exact .needs ih e
  have r3 : AReach op True s3 := (AReach.build r1 e).keeps hk
  obtain ⟨b1, b2, _⟩ := r3.good h
  have ha := addDiagonal_ok h hp b1 b2 e'
  refine ha.diag h hp hlin b1 b2 (fun s5 v' eb => ?_) hA
  obtain ⟨s6, e6⟩ := C43_reuse h r1 hr e hk (junk' := junk')
  rw [e6] at eb
  cases eb
  exact C43_build_partial h hs hn (hf.imp_right Or.inr) e

theorem zero_adv (s : ASt α) (out : Nat) : ∃ s', liftS (zeroVec (.vec out)) s = .ok s' () ∧ Advances s.st.vecs s'.st.vecs ∧
    s' = { s with st := { s.st with vecs := s'.st.vecs } } ∧ (∀ t, s'.st.L out t = 0) ∧
    (∀ w, w ≠ out → s'.st.vecs w = s.st.vecs w) ∧ (s'.st.vecs out).valid = true ∧
    (s'.st.vecs out).buf.len = (s.st.vecs out).buf.len := by
  refine ⟨{ s with st := { s.st with vecs := Function.update s.st.vecs out (LVec.mk
      ((s.st.vecs out).state + 2) true ⟨(s.st.vecs out).buf.len, fun _ => 0⟩) } }, rfl, ?_, rfl, ?_, ?_, ?_, ?_⟩
  · intro i
    by_cases hi : i = out
    · subst hi
      simp only [Function.update_self]
      exact ⟨trivial, Or.inr (by omega)⟩
    · simp only [Function.update_of_ne hi]
      exact ⟨trivial, Or.inl trivial⟩
  · intro t; simp [St.L]
  · intro w hw; simp [Function.update_of_ne hw]
  · simp
  · simp

theorem assembleDiagonal_eq {op : Oper α} {p : Prec α} {S : Meaning α} (hp : DiagOK op p S) (hne : 0 < op.ne)
    {pb checked : Bool} {junk : Nat → Nat → α} {out : Nat} {s s' : ASt α} (e : liftS (zeroVec (.vec out)) s = .ok s' ()) :
    assembleDiagonal op p pb checked junk out s = addDiagonal op p pb checked junk out s' := by
  unfold assembleDiagonal
  rw [M.bind_apply, M.check, if_pos hp.square, Out.bind_ok, if_neg (by omega), M.bind_apply, e, Out.bind_ok]

/-- `CeedOperatorLinearAssembleDiagonal` on an operator with elements makes the vector the diagonal of the matrix, whatever
it held. (Missing: as for `C44_add_partial`; and operators without elements, which leave the vector as it was,
`C44_empty_witness`.) -/
theorem C44_diagonal_partial {op : Oper α} {p : Prec α} {S : Meaning α} (h : OpOK op S) (hp : DiagOK op p S)
    (hlin : LinearQF op) (hne : 0 < op.ne) {s s1 s2 : ASt α} (hs : Unassembled op s) (hn : NoApply op s s1)
    (hf : s1.built = none ∨ s1.reuse = false ∨ s1.needs = true) {checked : Bool} {junk : Nat → Nat → α} {out : Nat}
    (ho : ∀ i < op.nin, (op.inp i).vec ≠ .vec out)
    (e : assembleDiagonal op p false checked junk out s1 = .ok s2 ()) {A : Nat → Nat → α}
    (hA : IsMatrix op S s1.st.L p.inSize.toNat A) :
    ((∀ t < p.inSize.toNat, s2.st.L out t = A t t) ∧
    (∀ t, p.inSize.toNat ≤ t → s2.st.L out t = 0) ∧ ∀ w, w ≠ out → s2.st.vecs w = s1.st.vecs w) ∧
    NoApply op s s2 := by
  obtain ⟨s', z1, z2, z3, z4, z5, _⟩ := zero_adv s1 out
  rw [assembleDiagonal_eq hp hne z1] at e
  have hn' : NoApply op s s' := by rw [z3]; exact .user hn z2
  have hf' : s'.built = none ∨ s'.reuse = false ∨ s'.needs = true := by rw [z3]; exact hf
  have hA' : IsMatrix op S s'.st.L p.inSize.toNat A := hA.congr (fun i hi w hw => by
    unfold St.L; rw [z5 w (fun hh => ho i hi (by rw [hw, hh]))])
  obtain ⟨⟨a1, a2, a3⟩, a4⟩ := C44_add_partial h hp hlin hs hn' hf' e hA'
  refine ⟨⟨fun t ht => ?_, fun t ht => ?_, fun w hw => ?_⟩, a4⟩
  · rw [a1 t ht, z4, zero_add]
  · rw [a2 t ht, z4]
  · rw [a3 w hw, z5 w hw]

/-- `CeedOperatorLinearAssembleAddPointBlockDiagonal`: entry `(co, ci)` of the block of node `a`, at position
`a nc² + co nc + ci`, gets the matrix entry of component `co` of the output and component `ci` of the input at that node;
the entries of nodes that occur in no element are left alone. (Missing: as for `C44_add_partial`; operators that are not
`BlockOK`, see the witnesses.) -/
theorem C44_block_partial {op : Oper α} {p : Prec α} {S : Meaning α} (h : OpOK op S) (hp : DiagOK op p S)
    (hlin : LinearQF op) {β ρ : Nat} {node : Nat → Nat → Nat} (hb : BlockOK op p S β ρ node)
    {s s1 s2 : ASt α} (hs : Unassembled op s) (hn : NoApply op s s1)
    (hf : s1.built = none ∨ s1.reuse = false ∨ s1.needs = true) {checked : Bool} {junk : Nat → Nat → α} {out : Nat}
    (e : addDiagonal op p true checked junk out s1 = .ok s2 ()) {A : Nat → Nat → α}
    (hA : IsMatrix op S s1.st.L p.inSize.toNat A) :
    ((∀ a co ci, co < (S.D ρ).nc → ci < (S.D ρ).nc →
      ((op.rstrs ρ).compStride = 1 ∨ a < (op.rstrs ρ).compStride.toNat) →
      nodePos (op.rstrs ρ).compStride (S.D ρ).nc a ci < p.inSize.toNat →
      s2.st.L out (a * ((S.D ρ).nc * (S.D ρ).nc) + (co * (S.D ρ).nc + ci)) =
        s1.st.L out (a * ((S.D ρ).nc * (S.D ρ).nc) + (co * (S.D ρ).nc + ci)) +
        A (nodePos (op.rstrs ρ).compStride (S.D ρ).nc a co) (nodePos (op.rstrs ρ).compStride (S.D ρ).nc a ci)) ∧
    (∀ a co ci, co < (S.D ρ).nc → ci < (S.D ρ).nc → (∀ e < op.ne, ∀ m < (S.D ρ).es, node e m ≠ a) →
      s2.st.L out (a * ((S.D ρ).nc * (S.D ρ).nc) + (co * (S.D ρ).nc + ci)) =
        s1.st.L out (a * ((S.D ρ).nc * (S.D ρ).nc) + (co * (S.D ρ).nc + ci))) ∧
    ∀ w, w ≠ out → s2.st.vecs w = s1.st.vecs w) ∧ NoApply op s s2 := by
  obtain ⟨g1, g2, g3⟩ := hs.good h
  obtain ⟨b1, b2, _⟩ := hn.sound h g1 g2 g3
  have ha := addBlock_ok h hp hb b1 b2 e
  exact ⟨ha.block h hp hlin hb b1 b2 (fun s3 v eb => C43_build_partial h hs hn hf eb) hA, ha.noApply hn⟩

/-- `CeedOperatorLinearAssemblePointBlockDiagonal` on an operator with elements. -/
theorem C44_block_diagonal_partial {op : Oper α} {p : Prec α} {S : Meaning α} (h : OpOK op S) (hp : DiagOK op p S)
    (hlin : LinearQF op) {β ρ : Nat} {node : Nat → Nat → Nat} (hb : BlockOK op p S β ρ node) (hne : 0 < op.ne)
    {s s1 s2 : ASt α} (hs : Unassembled op s) (hn : NoApply op s s1)
    (hf : s1.built = none ∨ s1.reuse = false ∨ s1.needs = true) {checked : Bool} {junk : Nat → Nat → α} {out : Nat}
    (ho : ∀ i < op.nin, (op.inp i).vec ≠ .vec out)
    (e : assembleDiagonal op p true checked junk out s1 = .ok s2 ()) {A : Nat → Nat → α}
    (hA : IsMatrix op S s1.st.L p.inSize.toNat A) :
    ((∀ a co ci, co < (S.D ρ).nc → ci < (S.D ρ).nc →
      ((op.rstrs ρ).compStride = 1 ∨ a < (op.rstrs ρ).compStride.toNat) →
      nodePos (op.rstrs ρ).compStride (S.D ρ).nc a ci < p.inSize.toNat →
      s2.st.L out (a * ((S.D ρ).nc * (S.D ρ).nc) + (co * (S.D ρ).nc + ci)) =
        A (nodePos (op.rstrs ρ).compStride (S.D ρ).nc a co) (nodePos (op.rstrs ρ).compStride (S.D ρ).nc a ci)) ∧
    (∀ a co ci, co < (S.D ρ).nc → ci < (S.D ρ).nc → (∀ e < op.ne, ∀ m < (S.D ρ).es, node e m ≠ a) →
      s2.st.L out (a * ((S.D ρ).nc * (S.D ρ).nc) + (co * (S.D ρ).nc + ci)) = 0) ∧
    ∀ w, w ≠ out → s2.st.vecs w = s1.st.vecs w) ∧ NoApply op s s2 := by
  obtain ⟨s', z1, z2, z3, z4, z5, _⟩ := zero_adv s1 out
  rw [assembleDiagonal_eq hp hne z1] at e
  have hn' : NoApply op s s' := by rw [z3]; exact .user hn z2
  have hf' : s'.built = none ∨ s'.reuse = false ∨ s'.needs = true := by rw [z3]; exact hf
  have hA' : IsMatrix op S s'.st.L p.inSize.toNat A := hA.congr (fun i hi w hw => by
    unfold St.L; rw [z5 w (fun hh => ho i hi (by rw [hw, hh]))])
  obtain ⟨⟨a1, a2, a3⟩, a4⟩ := C44_block_partial h hp hlin hb hs hn' hf' e hA'
  refine ⟨⟨fun a co ci h1 h2 h3 h4 => ?_, fun a co ci h1 h2 h3 => ?_, fun w hw => ?_⟩, a4⟩
  · rw [a1 a co ci h1 h2 h3 h4, z4, zero_add]
  · rw [a2 a co ci h1 h2 h3, z4]
  · rw [a3 w hw, z5 w hw]

/-- After a history without failing calls, the diagonal is assembled without error or undefined behaviour if the passive
inputs hold data and are long enough, there are active inputs and outputs, the operator does more than restrict and
scatter, and the vector holds data and is long enough. -/
theorem C44_succeeds {op : Oper α} {p : Prec α} {S : Meaning α} (h : OpOK op S) (hp : DiagOK op p S) {s : ASt α}
    (hs : AReach op False s) (hr : PassiveReady op s.st) (hi : 0 < op.cIn) (ho : 0 < op.cOut)
    (hid : ¬ (op.isId = true ∧ (op.inp 0).mode = .none ∧ (op.out 0).mode = .none)) {out : Nat}
    (hv : (s.st.vecs out).valid = true) (hl : p.inSize ≤ (s.st.vecs out).buf.len) (checked : Bool) (junk : Nat → Nat → α) :
    ∃ s', addDiagonal op p false checked junk out s = .ok s' () := by
  obtain ⟨g1, g2, g3⟩ := hs.good h
  rw [addDiagonal_eq h hp g1 g2]
  by_cases h0 : op.ne = 0
  · rw [if_pos h0]; exact ⟨s, rfl⟩
  · rw [if_neg h0]
    have := buildOrUpdate_wp h junk g1 g2 (R := True) (fun _ _ => ⟨hr, g3 (fun hh => hh), hi, ho, hid⟩)
    cases e : buildOrUpdate op junk s with
    | ok s1 v =>
      obtain ⟨_, _, b3, b4⟩ := build_data h g1 g2 e
      obtain ⟨s', e', _⟩ := (diagLoop_diag h hp (checked := checked) (out := out) b3 s1).1 ⟨by rw [b4]; exact hv, by rw [b4]; exact hl⟩
      exact ⟨s', e'⟩
    | err s1 c => exact absurd trivial (M.wp_err this e).1
    | ub => exact absurd trivial (M.wp_ub this e)

/-- The same for the point block diagonal. -/
theorem C44_block_succeeds {op : Oper α} {p : Prec α} {S : Meaning α} (h : OpOK op S) (hp : DiagOK op p S) {β ρ : Nat}
    {node : Nat → Nat → Nat} (hb : BlockOK op p S β ρ node) {s : ASt α}
    (hs : AReach op False s) (hr : PassiveReady op s.st) (hi : 0 < op.cIn) (ho : 0 < op.cOut)
    (hid : ¬ (op.isId = true ∧ (op.inp 0).mode = .none ∧ (op.out 0).mode = .none)) {out : Nat}
    (hv : (s.st.vecs out).valid = true) (hl : p.inSize * (S.D ρ).nc ≤ (s.st.vecs out).buf.len) (checked : Bool)
    (junk : Nat → Nat → α) : ∃ s', addDiagonal op p true checked junk out s = .ok s' () := by
  obtain ⟨g1, g2, g3⟩ := hs.good h
  rw [addDiagonal_eq h hp g1 g2]
  by_cases h0 : op.ne = 0
  · rw [if_pos h0]; exact ⟨s, rfl⟩
  · rw [if_neg h0]
    have := buildOrUpdate_wp h junk g1 g2 (R := True) (fun _ _ => ⟨hr, g3 (fun hh => hh), hi, ho, hid⟩)
    cases e : buildOrUpdate op junk s with
    | ok s1 v =>
      obtain ⟨_, _, b3, b4⟩ := build_data h g1 g2 e
      obtain ⟨s', e', _⟩ := (diagLoop_block h hp hb (checked := checked) (out := out) b3 s1).1
        ⟨by rw [b4]; exact hv, by rw [b4]; exact hl⟩
      exact ⟨s', e'⟩
    | err s1 c => exact absurd trivial (M.wp_err this e).1
    | ub => exact absurd trivial (M.wp_ub this e)

/-- A vector that holds no data or is too short is rejected without being changed, unless there is nothing to add. -/
theorem C44_rejects {op : Oper α} {p : Prec α} {S : Meaning α} (h : OpOK op S) (hp : DiagOK op p S) {s : ASt α}
    (hs : AReach op False s) (hr : PassiveReady op s.st) (hi : 0 < op.cIn) (ho : 0 < op.cOut)
    (hid : ¬ (op.isId = true ∧ (op.inp 0).mode = .none ∧ (op.out 0).mode = .none)) {out : Nat}
    (hv : ¬ ((s.st.vecs out).valid = true ∧ p.inSize ≤ (s.st.vecs out).buf.len)) (checked : Bool) (junk : Nat → Nat → α) :
    ∃ s', (addDiagonal op p false checked junk out s = .ok s' () ∨ ∃ c, addDiagonal op p false checked junk out s = .err s' c) ∧
      s'.st.vecs = s.st.vecs := by
  obtain ⟨g1, g2, g3⟩ := hs.good h
  rw [addDiagonal_eq h hp g1 g2]
  by_cases h0 : op.ne = 0
  · rw [if_pos h0]; exact ⟨s, Or.inl rfl, rfl⟩
  · rw [if_neg h0]
    have := buildOrUpdate_wp h junk g1 g2 (R := True) (fun _ _ => ⟨hr, g3 (fun hh => hh), hi, ho, hid⟩)
    cases e : buildOrUpdate op junk s with
    | ok s1 v =>
      obtain ⟨_, _, b3, b4⟩ := build_data h g1 g2 e
      rcases (diagLoop_diag h hp (checked := checked) (out := out) b3 s1).2 (fun hc => hv ⟨by rw [← b4]; exact hc.1, by
        rw [← b4]; exact hc.2⟩) with ⟨e', _⟩ | ⟨c, e'⟩
      · exact ⟨s1, Or.inl e', b4⟩
      · exact ⟨s1, Or.inr ⟨c, e'⟩, b4⟩
    | err s1 c => exact absurd trivial (M.wp_err this e).1
    | ub => exact absurd trivial (M.wp_ub this e)

end Operator
end Verif
