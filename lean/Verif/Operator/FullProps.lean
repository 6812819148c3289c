import Verif.Operator.FullRun
import Verif.Operator.DiagProps

/-!
# C45: assembly of the matrix
-/

set_option linter.unusedSectionVars false

namespace Verif
namespace Operator

open Finset
open Restriction (RData Made Rep Variant Rstr)

variable {α : Type} [CommRing α] {op : Oper α} {p : Prec α} {S : Meaning α}

/-! ## One operator at an offset -/

/-- The number of entries: element, component and node of the input, component and node of the output. -/
def numEntries (op : Oper α) (S : Meaning α) (ri ro : Nat) : Nat :=
  op.ne * (S.D ri).nc * (S.D ro).nc * (S.D ro).es * (S.D ri).es

theorem activePair_ok {ri ro : Nat} (h : activePair op = .ok (ri, ro)) :
    activeRstr op.inp op.nin = .ok ri ∧ activeRstr op.out op.nout = .ok ro := by
  unfold activePair at h
  obtain ⟨a, h1, h⟩ := Res.bind_eq_ok.1 h
  obtain ⟨b, h2, h⟩ := Res.bind_eq_ok.1 h
  obtain ⟨_, _, h⟩ := Res.bind_eq_ok.1 h
  cases h
  exact ⟨h1, h2⟩

theorem pair_made (h : OpOK op S) (hp : FullOK op p S) {ri ro : Nat} (hr : activePair op = .ok (ri, ro)) :
    Made .plain (op.rstrs ri) 1 p.inSize (S.D ri) ∧ Made .plain (op.rstrs ro) 1 p.outSize (S.D ro) ∧
    Made .plain (op.rstrs ro) 1 (if ri = ro then p.inSize else p.outSize) (S.D ro) ∧ (S.D ri).ne = op.ne ∧
    (S.D ro).ne = op.ne := by
  obtain ⟨h1, h2⟩ := activePair_ok hr
  obtain ⟨k1, i, hi, hai⟩ := activeRstr_ok h1
  obtain ⟨k2, o, ho, hao⟩ := activeRstr_ok h2
  obtain ⟨r, l, e1, e2, e3⟩ := ((h.inp i hi).active hai).1
  rw [k1 i hi hai] at e1; cases e1
  obtain ⟨r, l', f1, f2, f3⟩ := (h.out o ho).active.1
  rw [k2 o ho hao] at f1; cases f1
  have g1 : l = p.inSize := by rw [← e2.rep.2.2]; exact hp.inSize i hi hai ri (k1 i hi hai)
  have g2 : l' = p.outSize := by rw [← f2.rep.2.2]; exact hp.outSize o ho hao ro (k2 o ho hao)
  subst g1; subst g2
  refine ⟨e2, f2, ?_, e3, f3⟩
  by_cases hh : ri = ro
  · subst hh; rw [if_pos rfl]; exact e2
  · rw [if_neg hh]; exact f2

theorem count_ok (h : OpOK op S) (hp : FullOK op p S) {ri ro : Nat} (hr : activePair op = .ok (ri, ro)) :
    countEntries op = .ok (numEntries op S ri ro) := by
  obtain ⟨m1, m2, _, n1, _⟩ := pair_made h hp hr
  rw [countEntries_ok hr m1 m2, n1]; rfl

theorem count_pair {N : Nat} (hc : countEntries op = .ok N) : ∃ ri ro, activePair op = .ok (ri, ro) := by
  unfold countEntries at hc
  obtain ⟨⟨ri, ro⟩, h1, _⟩ := Res.bind_eq_ok.1 hc
  exact ⟨ri, ro, h1⟩

/-- The coordinates. -/
theorem symbolic_run (h : OpOK op S) (hp : FullOK op p S) {ri ro : Nat} (hr : activePair op = .ok (ri, ro)) {off : Nat}
    {rc : Buf (Int × Int)} (hl : off + numEntries op S ri ro ≤ rc.len) :
    ∃ rc', symbolicSingle op p off rc = .ok rc' ∧ rc'.len = rc.len ∧
      (∀ e < op.ne, ∀ ci < (S.D ri).nc, ∀ co < (S.D ro).nc, ∀ i < (S.D ro).es, ∀ j < (S.D ri).es,
        rc'.val (off + epos (S.D ri).nc (S.D ro).nc (S.D ro).es (S.D ri).es e ci co i j) =
          (((S.D ro).lidx e i co : Int), ((S.D ri).lidx e j ci : Int))) ∧
      (∀ x, (x < off ∨ off + numEntries op S ri ro ≤ x) → rc'.val x = rc.val x) ∧
      ∀ k < numEntries op S ri ro, ∃ t c : Nat, rc'.val (off + k) = ((t : Int), (c : Int)) ∧ (t : Int) < p.outSize ∧
        (c : Int) < p.inSize := by
  obtain ⟨m1, m2, m3, n1, n2⟩ := pair_made h hp hr
  obtain ⟨rc', e1, e2, e3, e4⟩ := symbolicSingle_ok hr m1 m3 (by rw [n1, n2]) (off := off) (rc := rc)
    (by rw [n1]; exact hl)
  rw [n1] at e3 e4
  refine ⟨rc', e1, e2, e3, e4, ?_⟩
  intro k hk
  obtain ⟨e, he, ci, hci, co, hco, i, hi, j, hj, rfl⟩ := epos_surj hk
  refine ⟨_, _, e3 e he ci hci co hco i hi j hj, ?_, ?_⟩
  · have := m2.rep.1.rng e (by omega) i hi co hco
    rwa [m2.rep.2.2] at this
  · have := m1.rep.1.rng e (by omega) j hj ci hci
    rwa [m1.rep.2.2] at this

theorem sides (h : OpOK op S) (hp : FullOK op p S) {ri ro : Nat} (hr : activePair op = .ok (ri, ro)) {a b : ABasis}
    (ha : (asmData p op.inp p.inB op.nin).1 = [a]) (hb : (asmData p op.out p.outB op.nout).1 = [b]) :
    Side op p S op.inp p.inB S.mIn op.nin a ri ∧ Side op p S op.out p.outB S.mOut op.nout b ro := by
  obtain ⟨h1, h2⟩ := activePair_ok hr
  refine ⟨side_aux ha h1 hp.sepIn (fun i hi hai => hp.fieldIn h hi hai) (fun i hi hai => ?_),
    side_aux hb h2 hp.sepOut (fun o ho hao => hp.fieldOut h ho hao) (fun o ho hao => ?_)⟩
  · exact ⟨((h.inp i hi).active hai).1, ((h.inp i hi).active hai).2.1⟩
  · exact ⟨(h.out o ho).active.1, (h.out o ho).active.2.1⟩

/-- The state after the values have been stored. -/
def stored (s : ASt α) (out : Nat) (w : Buf α) : ASt α :=
  { s with st := { s.st with vecs := Function.update s.st.vecs out (LVec.mk ((s.st.vecs out).state + 2) true w) } }

theorem stored_adv (s : ASt α) (out : Nat) {w : Buf α} (hw : w.len = (s.st.vecs out).buf.len) :
    Advances s.st.vecs (stored s out w).st.vecs := by
  intro i
  unfold stored
  by_cases hi : i = out
  · subst hi
    simp only [Function.update_self]
    exact ⟨hw, Or.inr (by omega)⟩
  · simp only [Function.update_of_ne hi]
    exact ⟨trivial, Or.inl trivial⟩

/-- The values with one active basis on either side. -/
theorem with_run (h : OpOK op S) (hp : FullOK op p S) {ri ro : Nat} (hr : activePair op = .ok (ri, ro)) {a b : ABasis}
    (ha : (asmData p op.inp p.inB op.nin).1 = [a]) (hb : (asmData p op.out p.outB op.nout).1 = [b]) (tensor : Bool)
    {D : Buf α} (hD : D.len = op.alen) {off out : Nat} {s : ASt α}
    (hl : off + numEntries op S ri ro ≤ (s.st.vecs out).buf.len) (hv : (s.st.vecs out).valid = true)
    (hm : 0 < a.modes.length ∧ 0 < b.modes.length) :
    ∃ w, assembleWith op p tensor D (op.cIn * op.cOut) off out a b s = .ok (stored s out w) () ∧
      w.len = (s.st.vecs out).buf.len ∧
      (∀ e < op.ne, ∀ ci < (S.D ri).nc, ∀ co < (S.D ro).nc, ∀ i < (S.D ro).es, ∀ j < (S.D ri).es,
        w.val (off + epos (S.D ri).nc (S.D ro).nc (S.D ro).es (S.D ri).es e ci co i j) =
          entryVal op S (S.D ri) (S.D ro) D e ci co i j) ∧
      ∀ x, (x < off ∨ off + numEntries op S ri ro ≤ x) → w.val x = (s.st.vecs out).buf.val x := by
  obtain ⟨si, so⟩ := sides h hp hr ha hb
  obtain ⟨V, v1, _⟩ := si.basis
  obtain ⟨W, w1, _⟩ := so.basis
  obtain ⟨m1, m2, _⟩ := pair_made h hp hr
  have q1 : fullQ p a.bid (op.rstrs ri).elemSize = op.Q := by
    obtain ⟨i, hi, hai⟩ := si.ex
    have := (si.fields i hi hai).2.2.Q
    rwa [si.dat hi hai, ← m1.rep.1.es] at this
  have q2 : fullQ p b.bid (op.rstrs ro).elemSize = op.Q := by
    obtain ⟨i, hi, hai⟩ := so.ex
    have := (so.fields i hi hai).2.2.Q
    rwa [so.dat hi hai, ← m2.rep.1.es] at this
  obtain ⟨w, e1, e2, e3, e4⟩ := fillVals_ok si so tensor hD v1 w1 hl
  refine ⟨w, ?_, e2, e3, e4⟩
  unfold assembleWith
  rw [M.bind_apply, M.check, if_pos hm, Out.bind_ok, M.bind_apply]
  simp only [M.lift, v1]
  rw [Out.bind_ok, M.bind_apply]
  simp only [M.lift, w1]
  rw [Out.bind_ok, M.bind_apply]
  simp only [M.lift, hr]
  rw [Out.bind_ok, M.bind_apply, q1, q2, M.check, if_pos (Or.inr rfl), Out.bind_ok]
  unfold liftS editVec
  rw [if_pos hv, e1]
  rfl

/-- What is needed for a successful call, and what it does. -/
theorem single_run (h : OpOK op S) (hp : FullOK op p S) {s s2 : ASt α} (hg : Good op S s.st) (hd : AData op s) {ri ro : Nat}
    (hr : activePair op = .ok (ri, ro)) {tensor : Bool} {junk : Nat → Nat → α} {off out : Nat}
    (hl : off + numEntries op S ri ro ≤ (s.st.vecs out).buf.len)
    (e : assembleSingle op p tensor junk off out s = .ok s2 ()) :
    (op.ne = 0 ∧ s2 = s) ∨ (op.ne ≠ 0 ∧ ∃ s1 v w a b, (asmData p op.inp p.inB op.nin).1 = [a] ∧
      (asmData p op.out p.outB op.nout).1 = [b] ∧ buildOrUpdate op junk s = .ok s1 v ∧ s2 = stored s1 out w ∧
      w.len = (s.st.vecs out).buf.len ∧ s1.st.vecs = s.st.vecs ∧
      (∀ e < op.ne, ∀ ci < (S.D ri).nc, ∀ co < (S.D ro).nc, ∀ i < (S.D ro).es, ∀ j < (S.D ri).es,
        w.val (off + epos (S.D ri).nc (S.D ro).nc (S.D ro).es (S.D ri).es e ci co i j) =
          entryVal op S (S.D ri) (S.D ro) v e ci co i j) ∧
      ∀ x, (x < off ∨ off + numEntries op S ri ro ≤ x) → w.val x = s.st.L out x) := by
  unfold assembleSingle at e
  by_cases h0 : op.ne = 0
  · rw [if_pos h0] at e; cases e; exact Or.inl ⟨h0, rfl⟩
  · rw [if_neg h0] at e
    right
    refine ⟨h0, ?_⟩
    rw [M.bind_apply] at e
    rcases e1 : buildOrUpdate op junk s with ⟨s1, v⟩ | ⟨s1, c⟩ | _
    · rw [e1, Out.bind_ok, M.bind_apply] at e
      obtain ⟨z1, z2, z3, z4⟩ := build_data h hg hd e1
      simp only [getA, Out.bind_ok] at e
      rcases ha : (asmData p op.inp p.inB op.nin).1 with _ | ⟨a, _ | _⟩
      · rw [ha] at e; cases e
      · rcases hb : (asmData p op.out p.outB op.nout).1 with _ | ⟨b, _ | _⟩
        · rw [ha, hb] at e; cases e
        · rw [ha, hb] at e
          simp only [z1, z2] at e
          have hvm : (s1.st.vecs out).valid = true ∧ 0 < a.modes.length ∧ 0 < b.modes.length := by
            have e' := e
            unfold assembleWith at e'
            rw [M.bind_apply, M.check] at e'
            by_cases hm : 0 < a.modes.length ∧ 0 < b.modes.length
            · refine ⟨?_, hm⟩
              by_contra hv
              obtain ⟨si, so⟩ := sides h hp hr ha hb
              obtain ⟨V, v1, _⟩ := si.basis
              obtain ⟨W, w1, _⟩ := so.basis
              rw [if_pos hm, Out.bind_ok, M.bind_apply] at e'
              simp only [M.lift, v1] at e'
              rw [Out.bind_ok, M.bind_apply] at e'
              simp only [M.lift, w1] at e'
              rw [Out.bind_ok, M.bind_apply] at e'
              simp only [M.lift, hr] at e'
              rw [Out.bind_ok, M.bind_apply, M.check] at e'
              split at e'
              · rw [Out.bind_ok] at e'
                obtain ⟨t, e2, _⟩ := liftS_eq_ok e'
                unfold editVec at e2
                rw [if_neg hv] at e2
                cases e2
              · cases e'
            · rw [if_neg hm] at e'; cases e'
          obtain ⟨w, f1, f2, f3, f4⟩ := with_run h hp hr ha hb tensor z3 (off := off) (out := out) (s := s1)
            (by rw [z4]; exact hl) hvm.1 hvm.2
          rw [f1] at e
          cases e
          refine ⟨s1, v, w, a, b, rfl, rfl, rfl, rfl, by rw [f2, z4], z4, f3, fun x hx => ?_⟩
          rw [f4 x hx, z4]; rfl
        · rw [ha, hb] at e; cases e
      · rw [ha] at e; cases e
    · rw [e1] at e; cases e
    · rw [e1] at e; cases e

/-- What one operator contributes, at any offset. -/
theorem single_matrix (h : OpOK op S) (hp : FullOK op p S) (hlin : LinearQF op) {s s2 : ASt α} (hg : Good op S s.st)
    (hd : AData op s) {N : Nat} (hc : countEntries op = .ok N) {off out : Nat} {rc rc' : Buf (Int × Int)}
    (hs : symbolicSingle op p off rc = .ok rc') (hrl : off + N ≤ rc.len) {tensor : Bool} {junk : Nat → Nat → α}
    (hl : off + N ≤ (s.st.vecs out).buf.len) (e : assembleSingle op p tensor junk off out s = .ok s2 ()) :
    rc'.len = rc.len ∧ (∀ x, (x < off ∨ off + N ≤ x) → rc'.val x = rc.val x) ∧
    (∀ k < N, ∃ t c : Nat, rc'.val (off + k) = ((t : Int), (c : Int)) ∧ (t : Int) < p.outSize ∧ (c : Int) < p.inSize) ∧
    (∀ x, (x < off ∨ off + N ≤ x) → s2.st.L out x = s.st.L out x) ∧ (∀ w, w ≠ out → s2.st.vecs w = s.st.vecs w) ∧
    Advances s.st.vecs s2.st.vecs ∧ (∀ s0, NoApply op s0 s → NoApply op s0 s2) ∧
    ∀ (L : Nat → Nat → α), (∀ s1 v, buildOrUpdate op junk s = .ok s1 v → Columns op S L v) →
      ∀ A, IsMatrix op S L p.inSize.toNat A → ∀ t c, c < p.inSize.toNat →
        coo N (fun k => rc'.val (off + k)) (fun k => s2.st.L out (off + k)) t c = A t c := by
  obtain ⟨ri, ro, hr⟩ := count_pair hc
  rw [count_ok h hp hr] at hc
  cases hc
  obtain ⟨rc'', f1, f2, f3, f4, f5⟩ := symbolic_run h hp hr hrl
  rw [hs] at f1; cases f1
  refine ⟨f2, f4, f5, ?_⟩
  rcases single_run h hp hg hd hr hl e with ⟨h0, rfl⟩ | ⟨h0, s1, v, w, a, b, ha, hb, e1, rfl, hw, z4, e3, e4⟩
  · refine ⟨fun _ _ => rfl, fun _ _ => rfl, fun _ => ⟨rfl, Or.inl rfl⟩, fun _ hh => hh, fun L _ A hA t c hcc => ?_⟩
    obtain ⟨v, hv⟩ := exists_columns op S L
    rw [hA.entry h hlin hv t hcc, form_empty S v _ t h0]
    unfold coo numEntries
    rw [h0]
    simp
  · have hadv : Advances s1.st.vecs (stored s1 out w).st.vecs := stored_adv s1 out (by rw [hw, z4])
    have hout : ∀ x, (stored s1 out w).st.L out x = w.val x := by
      intro x; unfold stored St.L; simp only [Function.update_self]
    refine ⟨fun x hx => by rw [hout, e4 x hx], fun y hy => ?_, by rw [← z4]; exact hadv, fun s0 hh => ?_,
      fun L hv A hA t c hcc => ?_⟩
    · unfold stored; simp only [Function.update_of_ne hy]; rw [z4]
    · exact .user (.build hh e1) hadv
    · obtain ⟨si, so⟩ := sides h hp hr ha hb
      rw [hA.entry h hlin (hv s1 v e1) t hcc, ← sum_entries si so v t c]
      unfold coo numEntries
      rw [sum_epos]
      refine sum_congr rfl (fun e he => sum_congr rfl (fun ci hci => sum_congr rfl (fun co hco => sum_congr rfl (fun i hi =>
        sum_congr rfl (fun j hj => ?_)))))
      rw [mem_range] at he hci hco hi hj
      simp only []
      rw [hout, f3 e he ci hci co hco i hi j hj, e3 e he ci hci co hco i hi j hj]

/-! ## The properties -/

theorem symbolic_ok {N : Nat} {rc : Buf (Int × Int)} (hs : symbolic op p = .ok (N, rc)) :
    countEntries op = .ok N ∧ symbolicSingle op p 0 ⟨N, fun _ => (0, 0)⟩ = .ok rc := by
  unfold symbolic at hs
  obtain ⟨n, h1, hs⟩ := Res.bind_eq_ok.1 hs
  obtain ⟨r, h2, hs⟩ := Res.bind_eq_ok.1 hs
  cases hs
  exact ⟨h1, h2⟩

/-- The coordinates of `CeedOperatorLinearAssembleSymbolic` and the values of `CeedOperatorLinearAssemble` are the matrix
of the operator, for the passive inputs as the vectors are at the time of the call: for every row and column, the values of
the triples with these coordinates add up to the entry. All coordinates are entries of the active vectors, as many triples
are written as are reported, the rest of `values` is zero, and no other vector is changed; after any history of applications
followed by anything but applications. (Missing: applications between assemblies, for which the assembled QFunction may be
wrong, `C43_stale_witness`; adjacent gradients, `C45_adjacent_witness`; `values` shorter than the number of entries, of which
the behaviour is undefined, `C45_short_witness`.) -/
theorem C45_assemble_partial (h : OpOK op S) (hp : FullOK op p S) (hlin : LinearQF op)
    {s s1 s2 : ASt α} (hs : Unassembled op s) (hn : NoApply op s s1)
    (hf : s1.built = none ∨ s1.reuse = false ∨ s1.needs = true) {N : Nat} {rc : Buf (Int × Int)}
    (hsym : symbolic op p = .ok (N, rc)) {tensor : Bool} {junk : Nat → Nat → α} {out : Nat}
    (ho : ∀ i < op.nin, (op.inp i).vec ≠ .vec out) (hl : N ≤ (s1.st.vecs out).buf.len)
    (e : assemble op p tensor junk out s1 = .ok s2 ()) {A : Nat → Nat → α}
    (hA : IsMatrix op S s1.st.L p.inSize.toNat A) :
    rc.len = N ∧
    (∀ k < N, ∃ t c : Nat, rc.val k = ((t : Int), (c : Int)) ∧ (t : Int) < p.outSize ∧ (c : Int) < p.inSize) ∧
    (∀ t c, c < p.inSize.toNat → coo N rc.val (s2.st.L out) t c = A t c) ∧
    (∀ k, op.ne ≠ 0 → N ≤ k → s2.st.L out k = 0) ∧ (∀ w, w ≠ out → s2.st.vecs w = s1.st.vecs w) ∧ NoApply op s s2 := by
  obtain ⟨c1, c2⟩ := symbolic_ok hsym
  obtain ⟨g1, g2, g3⟩ := hs.good h
  unfold assemble at e
  by_cases h0 : op.ne = 0
  · rw [if_pos h0] at e
    cases e
    obtain ⟨b1, b2, _⟩ := hn.sound h g1 g2 g3
    obtain ⟨k1, _, k3, _, _, _, _, k8⟩ := single_matrix h hp hlin b1 b2 c1 c2 (by simp) (tensor := tensor) (junk := junk)
      (out := out) (by rw [Nat.zero_add]; exact hl) (s2 := s1) (by unfold assembleSingle; rw [if_pos h0]; rfl)
    simp only [Nat.zero_add] at k3 k8
    refine ⟨k1, k3, fun t c hc => ?_, fun k hk => absurd h0 hk, fun _ _ => rfl, hn⟩
    exact k8 s1.st.L (fun s3 v eb => C43_build_partial h hs hn hf eb) A hA t c hc
  · rw [if_neg h0, M.bind_apply] at e
    obtain ⟨s', z1, z2, z3, z4, z5, _, z6⟩ := zero_adv s1 out
    rw [z1, Out.bind_ok] at e
    have hn' : NoApply op s s' := by rw [z3]; exact .user hn z2
    have hf' : s'.built = none ∨ s'.reuse = false ∨ s'.needs = true := by rw [z3]; exact hf
    have hA' : IsMatrix op S s'.st.L p.inSize.toNat A := hA.congr (fun i hi w hw => by
      unfold St.L; rw [z5 w (fun hh => ho i hi (by rw [hw, hh]))])
    obtain ⟨b1, b2, _⟩ := hn'.sound h g1 g2 g3
    obtain ⟨k1, _, k3, k4, k5, _, k7, k8⟩ := single_matrix h hp hlin b1 b2 c1 c2 (by simp)
      (by rw [Nat.zero_add, z6]; exact hl) e
    simp only [Nat.zero_add] at k3 k4 k8
    refine ⟨k1, k3, fun t c hc => ?_, fun k _ hk => ?_, fun w hw => ?_, k7 s hn'⟩
    · exact k8 s'.st.L (fun s3 v eb => C43_build_partial h hs hn' hf' eb) A hA' t c hc
    · rw [k4 k (Or.inr hk), z4]
    · rw [k5 w hw, z5 w hw]

/-- If the active inputs have one component in total (such as a mass operator of one component), applications in between do
no harm. -/
theorem C45_assemble_single_partial (h : OpOK op S) (hp : FullOK op p S) (hlin : LinearQF op) (hsep : Separate op) (h1 : op.cIn = 1)
    {s s2 : ASt α} (hs : AReach op True s) (hf : s.built = none ∨ s.reuse = false ∨ s.needs = true) {N : Nat}
    {rc : Buf (Int × Int)} (hsym : symbolic op p = .ok (N, rc)) {tensor : Bool} {junk : Nat → Nat → α} {out : Nat}
    (ho : ∀ i < op.nin, (op.inp i).vec ≠ .vec out) (hl : N ≤ (s.st.vecs out).buf.len)
    (e : assemble op p tensor junk out s = .ok s2 ()) {A : Nat → Nat → α}
    (hA : IsMatrix op S s.st.L p.inSize.toNat A) :
    ∀ t c, c < p.inSize.toNat → coo N rc.val (s2.st.L out) t c = A t c := by
  obtain ⟨c1, c2⟩ := symbolic_ok hsym
  unfold assemble at e
  have fin : ∀ s' s'' : ASt α, AReach op True s' → (s'.built = none ∨ s'.reuse = false ∨ s'.needs = true) →
      N ≤ (s'.st.vecs out).buf.len → assembleSingle op p tensor junk 0 out s' = .ok s'' () →
      IsMatrix op S s'.st.L p.inSize.toNat A → ∀ t c, c < p.inSize.toNat → coo N rc.val (s''.st.L out) t c = A t c := by
    intro s' s'' hs' hf' hl' e' hA' t c hc
    obtain ⟨b1, b2, _⟩ := hs'.good h
    obtain ⟨_, _, _, _, _, _, _, k8⟩ := single_matrix h hp hlin b1 b2 c1 c2 (by simp) (by rw [Nat.zero_add]; exact hl') e'
    simp only [Nat.zero_add] at k8
    refine k8 s'.st.L (fun s3 v eb => ?_) A hA' t c hc
    rcases M.wp_ok (buildOrUpdate_wp h _ b1 b2 (R := False) (fun hh => hh.elim)) eb with ⟨_, s3, hB, _⟩ | ⟨hh, _⟩
    · exact (hB.cols ⟨hsep, Or.inr (Or.inl h1)⟩).1
    · exact absurd hf' hh
  by_cases h0 : op.ne = 0
  · rw [if_pos h0] at e
    cases e
    exact fin s s hs hf hl (by unfold assembleSingle; rw [if_pos h0]; rfl) hA
  · rw [if_neg h0, M.bind_apply] at e
    obtain ⟨s', z1, z2, z3, z4, z5, _, z6⟩ := zero_adv s out
    rw [z1, Out.bind_ok] at e
    refine fin s' s2 ?_ (by rw [z3]; exact hf) (by rw [z6]; exact hl) e ?_
    · rw [z3]; exact .user hs z2
    · exact hA.congr (fun i hi w hw => by unfold St.L; rw [z5 w (fun hh => ho i hi (by rw [hw, hh]))])

/-- The number of entries reported is the number of elements times the sizes of the element matrices, and the check of the
number at the end of the calls never fails: the symbolic assembly succeeds for all operators that have active inputs and
outputs with one restriction each. -/
theorem C45_symbolic (h : OpOK op S) (hp : FullOK op p S) {ri ro : Nat}
    (hi : ∀ i < op.nin, (op.inp i).vec = .active → (op.inp i).rid = some ri) (hia : ∃ i < op.nin, (op.inp i).vec = .active)
    (ho : ∀ o < op.nout, (op.out o).vec = .active → (op.out o).rid = some ro)
    (hoa : ∃ o < op.nout, (op.out o).vec = .active) :
    ∃ rc, symbolic op p = .ok (op.ne * ((S.D ro).es * (S.D ro).nc) * ((S.D ri).es * (S.D ri).nc), rc) := by
  have hr : activePair op = .ok (ri, ro) := by
    have n1 : (op.rstrs ri).numElem = op.ne := by
      obtain ⟨i, hi1, hi2⟩ := hia
      obtain ⟨r, l, e1, e2, e3⟩ := ((h.inp i hi1).active hi2).1
      rw [hi i hi1 hi2] at e1; cases e1
      rw [e2.rep.1.ne, e3]
    have n2 : (op.rstrs ro).numElem = op.ne := by
      obtain ⟨o, ho1, ho2⟩ := hoa
      obtain ⟨r, l, e1, e2, e3⟩ := (h.out o ho1).active.1
      rw [ho o ho1 ho2] at e1; cases e1
      rw [e2.rep.1.ne, e3]
    unfold activePair
    rw [activeRstr_eq hi hia, Res.bind_ok, activeRstr_eq ho hoa, Res.bind_ok,
      Res.check_true (Or.inr (by rw [n1, n2])), Res.bind_ok]
  have hN : op.ne * ((S.D ro).es * (S.D ro).nc) * ((S.D ri).es * (S.D ri).nc) = numEntries op S ri ro := by
    unfold numEntries; ring
  obtain ⟨rc, e1, _⟩ := symbolic_run h hp hr (off := 0) (rc := ⟨numEntries op S ri ro, fun _ => (0, 0)⟩) (by simp)
  refine ⟨rc, ?_⟩
  unfold symbolic
  rw [count_ok h hp hr, Res.bind_ok, e1, Res.bind_ok, hN]

/-- With reuse the triples are those of the matrix at the last assembly of the QFunction, whatever happened to the passive
vectors, until an update is requested. -/
theorem C45_reuse_partial (h : OpOK op S) (hp : FullOK op p S)
    (hlin : LinearQF op) {s s1 s2 s3 s4 : ASt α} (hs : Unassembled op s) (h0 : AReach op True s) (hn : NoApply op s s1)
    (hf : s1.built = none ∨ s1.needs = true) (hr : s1.reuse = true)
    {junk junk' : Nat → Nat → α} {v : Buf α} (e : buildOrUpdate op junk s1 = .ok s2 v) (hk : KeepsFlags op s2 s3)
    {N : Nat} {rc : Buf (Int × Int)} (hsym : symbolic op p = .ok (N, rc)) {tensor : Bool} {out : Nat}
    (hl : N ≤ (s3.st.vecs out).buf.len) (e' : assemble op p tensor junk' out s3 = .ok s4 ()) {A : Nat → Nat → α}
    (hA : IsMatrix op S s1.st.L p.inSize.toNat A) :
    ∀ t c, c < p.inSize.toNat → coo N rc.val (s4.st.L out) t c = A t c := by
  have r1 : AReach op True s1 := by
    clear e hA hf hr
    induction hn with
    | refl => exact h0
    | user _ ha ih => exact .user ih ha
    | assemble _ e ih => exact .assemble ih e
    | build _ e ih => exact .build ih e
    | reuse _ e ih => exact .reuse ih e
    | needs _ e ih => exact .needs ih e
  obtain ⟨c1, c2⟩ := symbolic_ok hsym
  have fin : ∀ s' s'' : ASt α, KeepsFlags op s2 s' → N ≤ (s'.st.vecs out).buf.len →
      assembleSingle op p tensor junk' 0 out s' = .ok s'' () →
      ∀ t c, c < p.inSize.toNat → coo N rc.val (s''.st.L out) t c = A t c := by
    intro s' s'' hk' hl' ea t c hc
    obtain ⟨b1, b2, _⟩ := ((AReach.build r1 e).keeps hk').good h
    obtain ⟨_, _, _, _, _, _, _, k8⟩ := single_matrix h hp hlin b1 b2 c1 c2 (by simp) (by rw [Nat.zero_add]; exact hl') ea
    simp only [Nat.zero_add] at k8
    refine k8 s1.st.L (fun s5 v' eb => ?_) A hA t c hc
    obtain ⟨s6, e6⟩ := C43_reuse h r1 hr e hk' (junk' := junk')
    rw [e6] at eb
    cases eb
    exact C43_build_partial h hs hn (hf.imp_right Or.inr) e
  unfold assemble at e'
  by_cases hz : op.ne = 0
  · rw [if_pos hz] at e'
    cases e'
    exact fin s3 s3 hk hl (by unfold assembleSingle; rw [if_pos hz]; rfl)
  · rw [if_neg hz, M.bind_apply] at e'
    obtain ⟨s', z1, z2, z3, z4, z5, _, z6⟩ := zero_adv s3 out
    rw [z1, Out.bind_ok] at e'
    refine fin s' s4 ?_ (by rw [z6]; exact hl) e'
    rw [z3]; exact .user hk z2

theorem asmData_one {f : Nat → OField α} {ids : Nat → Option Nat} {β : Option Nat} :
    ∀ n, (∀ i < n, (f i).vec = .active → ids i = β) →
      ((∀ i < n, (f i).vec ≠ .active) ∧ (asmData p f ids n).1 = []) ∨ ∃ a, (asmData p f ids n).1 = [a] ∧ a.bid = β
  | 0, _ => Or.inl ⟨fun i hi => absurd hi (by omega), rfl⟩
  | n + 1, hb => by
    have ih := asmData_one n (fun i hi => hb i (by omega))
    rw [asmData]
    by_cases ha : (f n).vec = .active
    · rw [if_pos ha]
      refine Or.inr ?_
      show ∃ a, addModes _ _ _ (asmData p f ids n).1 = [a] ∧ _
      rcases ih with ⟨_, h1⟩ | ⟨a, h1, h2⟩
      · rw [h1]; exact ⟨_, rfl, hb n (by omega) ha⟩
      · rw [h1, addModes, if_pos (by rw [h2, hb n (by omega) ha])]
        exact ⟨_, rfl, h2⟩
    · rw [if_neg ha]
      rcases ih with ⟨h0, h1⟩ | h1
      · refine Or.inl ⟨fun i hi => ?_, h1⟩
        by_cases hin : i = n
        · subst hin; exact ha
        · exact h0 i (by omega)
      · exact Or.inr h1

theorem addModes_bids (bid rid : Option Nat) (new : List (Basis.EMode × Nat)) (l : List ABasis) (k : Option Nat) :
    k ∈ (addModes bid rid new l).map ABasis.bid ↔ k ∈ l.map ABasis.bid ∨ k = bid := by
  induction l with
  | nil => simp [addModes]
  | cons a l ih =>
    rw [addModes]
    split
    · rename_i h
      simp only [List.map_cons, List.mem_cons]
      constructor
      · exact Or.inl
      · rintro (h1 | h1)
        · exact h1
        · exact Or.inl (h1.trans h.symm)
    · simp only [List.map_cons, List.mem_cons, ih]
      tauto

theorem asmData_mem {f : Nat → OField α} {ids : Nat → Option Nat} {i : Nat} (ha : (f i).vec = .active) :
    ∀ n, i < n → ids i ∈ (asmData p f ids n).1.map ABasis.bid
  | 0, h => absurd h (by omega)
  | n + 1, h => by
    rw [asmData]
    by_cases hin : i = n
    · subst hin
      rw [if_pos ha]
      exact (addModes_bids _ _ _ _ _).2 (Or.inr rfl)
    · have ih := asmData_mem ha n (by omega) (ids := ids)
      by_cases hb : (f n).vec = .active
      · rw [if_pos hb]
        exact (addModes_bids _ _ _ _ _).2 (Or.inl ih)
      · rw [if_neg hb]; exact ih

theorem Side.pos {f : Nat → OField α} {ids : Nat → Option Nat} {ms : Nat → Buf α} {n r : Nat} {a : ABasis}
    (hs : Side op p S f ids ms n a r) (hc : 0 < Operator.offset f n) : 0 < a.modes.length := by
  rw [hs.len]
  by_contra hz
  have hz0 : firstMode p f ids a.bid n = 0 := by omega
  have hall : ∀ m ≤ n, firstMode p f ids a.bid m = 0 → ∀ i < m, (f i).vec = .active → (f i).size = 0 := by
    intro m
    induction m with
    | zero => intro _ _ i hi; omega
    | succ m ih =>
      intro hm h0 i hi hai
      rw [firstMode_succ] at h0
      by_cases him : i = m
      · subst him
        obtain ⟨e1, _, e3⟩ := hs.fields i (by omega) hai
        rw [if_pos ⟨hai, e1⟩] at h0
        have hq := e3.qc
        have h00 : (f i).qc = 0 := by omega
        rw [hs.size i (by omega) hai, h00, Nat.zero_mul]
      · exact ih (by omega) (by omega) i (by omega) hai
  have : Operator.offset f n = 0 := by
    unfold Operator.offset
    refine sum_eq_zero (fun i hi => ?_)
    split
    · rename_i hai; exact hall n (le_refl _) hz0 i (mem_range.1 hi) hai
    · rfl
  omega

/-- The calls succeed for operators with one restriction and one basis on either side that can be applied, if the vector is
long enough; no memory outside the arrays is accessed. -/
theorem C45_succeeds (h : OpOK op S) (hp : FullOK op p S) {s : ASt α}
    (hs : AReach op False s) (hr : PassiveReady op s.st) (hi : 0 < op.cIn) (ho : 0 < op.cOut)
    (hid : ¬ (op.isId = true ∧ (op.inp 0).mode = .none ∧ (op.out 0).mode = .none)) {N : Nat} {rc : Buf (Int × Int)}
    (hsym : symbolic op p = .ok (N, rc)) {out : Nat} (hl : N ≤ (s.st.vecs out).buf.len)
    (hout : ∀ i < op.nin, (op.inp i).vec ≠ .vec out) {βi βo : Option Nat}
    (hβi : ∀ i < op.nin, (op.inp i).vec = .active → p.inB i = βi)
    (hβo : ∀ o < op.nout, (op.out o).vec = .active → p.outB o = βo) (tensor : Bool) (junk : Nat → Nat → α) :
    ∃ s', assemble op p tensor junk out s = .ok s' () := by
  unfold assemble
  by_cases h0 : op.ne = 0
  · rw [if_pos h0]; exact ⟨s, rfl⟩
  · rw [if_neg h0, M.bind_apply]
    obtain ⟨s', z1, z2, z3, z4, z5, z7, z6⟩ := zero_adv s out
    have hs' : AReach op False s' := by rw [z3]; exact .user hs z2
    rw [z1, Out.bind_ok]
    obtain ⟨c1, _⟩ := symbolic_ok hsym
    obtain ⟨ri, ro, hpair⟩ := count_pair c1
    rw [count_ok h hp hpair] at c1
    cases c1
    obtain ⟨p1, p2⟩ := activePair_ok hpair
    obtain ⟨_, i, hi1, hi2⟩ := activeRstr_ok p1
    obtain ⟨_, o, ho1, ho2⟩ := activeRstr_ok p2
    obtain ⟨g1, g2, g3⟩ := hs'.good h
    have hr' : PassiveReady op s'.st := fun j hj hm ha => by
      obtain ⟨r, v, e1, e2, e3, e4⟩ := hr j hj hm ha
      have : s'.st.vecs v = s.st.vecs v := z5 v (fun hh => hout j hj (by rw [e2, hh]))
      exact ⟨r, v, e1, e2, by rw [this]; exact e3, by rw [this]; exact e4⟩
    have := buildOrUpdate_wp h junk g1 g2 (R := True) (fun _ _ => ⟨hr', g3 (fun hh => hh), hi, ho, hid⟩)
    unfold assembleSingle
    rw [if_neg h0, M.bind_apply]
    cases e : buildOrUpdate op junk s' with
    | ok s1 v =>
      obtain ⟨b1, b2, b3, b4⟩ := build_data h g1 g2 e
      rw [Out.bind_ok, M.bind_apply]
      simp only [getA, Out.bind_ok]
      rcases asmData_one (p := p) op.nin hβi with ⟨hh, _⟩ | ⟨a, ha, _⟩
      · exact absurd hi2 (hh i hi1)
      rcases asmData_one (p := p) op.nout hβo with ⟨hh, _⟩ | ⟨b, hb, _⟩
      · exact absurd ho2 (hh o ho1)
      rw [ha, hb]
      obtain ⟨si, so⟩ := sides h hp hpair ha hb
      obtain ⟨w, e', _⟩ := with_run h hp hpair ha hb tensor b3 (off := 0) (out := out) (s := s1)
        (by rw [Nat.zero_add, b4, z6]; exact hl) (by rw [b4]; exact z7) ⟨si.pos hi, so.pos ho⟩
      simp only [b1, b2]
      exact ⟨_, e'⟩
    | err s1 c => exact absurd trivial (M.wp_err this e).1
    | ub => exact absurd trivial (M.wp_ub this e)

/-- Operators with several bases for the active inputs, or for the active outputs, are rejected. -/
theorem C45_bases_rejected (h : OpOK op S) {s : ASt α}
    (hs : AReach op False s) (hr : PassiveReady op s.st) (hi : 0 < op.cIn) (ho : 0 < op.cOut)
    (hid : ¬ (op.isId = true ∧ (op.inp 0).mode = .none ∧ (op.out 0).mode = .none)) (hne : 0 < op.ne) {out : Nat}
    (hout : ∀ i < op.nin, (op.inp i).vec ≠ .vec out)
    (hb : (∃ i < op.nin, ∃ j < op.nin, (op.inp i).vec = .active ∧ (op.inp j).vec = .active ∧ p.inB i ≠ p.inB j) ∨
      ∃ i < op.nout, ∃ j < op.nout, (op.out i).vec = .active ∧ (op.out j).vec = .active ∧ p.outB i ≠ p.outB j)
    (tensor : Bool) (junk : Nat → Nat → α) : ∃ s', assemble op p tensor junk out s = .err s' .unsupported := by
  unfold assemble
  rw [if_neg (by omega), M.bind_apply]
  obtain ⟨s', z1, z2, z3, z4, z5, z7, z6⟩ := zero_adv s out
  have hs' : AReach op False s' := by rw [z3]; exact .user hs z2
  rw [z1, Out.bind_ok]
  obtain ⟨g1, g2, g3⟩ := hs'.good h
  have hr' : PassiveReady op s'.st := fun j hj hm ha => by
    obtain ⟨r, v, e1, e2, e3, e4⟩ := hr j hj hm ha
    have : s'.st.vecs v = s.st.vecs v := z5 v (fun hh => hout j hj (by rw [e2, hh]))
    exact ⟨r, v, e1, e2, by rw [this]; exact e3, by rw [this]; exact e4⟩
  have := buildOrUpdate_wp h junk g1 g2 (R := True) (fun _ _ => ⟨hr', g3 (fun hh => hh), hi, ho, hid⟩)
  unfold assembleSingle
  rw [if_neg (by omega), M.bind_apply]
  cases e : buildOrUpdate op junk s' with
  | ok s1 v =>
    rw [Out.bind_ok, M.bind_apply]
    simp only [getA, Out.bind_ok]
    have two : ∀ (f : Nat → OField α) (ids : Nat → Option Nat) (n i j : Nat), i < n → j < n → (f i).vec = .active →
        (f j).vec = .active → ids i ≠ ids j → ∀ a, (asmData p f ids n).1 ≠ [a] := by
      intro f ids n i j h1 h2 h3 h4 h5 a h6
      have m1 := asmData_mem (p := p) (ids := ids) h3 n h1
      have m2 := asmData_mem (p := p) (ids := ids) h4 n h2
      rw [h6] at m1 m2
      simp only [List.map_cons, List.map_nil, List.mem_singleton] at m1 m2
      exact h5 (m1.trans m2.symm)
    have not1 : ¬ ∃ a b, (asmData p op.inp p.inB op.nin).1 = [a] ∧ (asmData p op.out p.outB op.nout).1 = [b] := by
      rintro ⟨a, b, h1, h2⟩
      rcases hb with ⟨i, hi1, j, hj1, ai, aj, hij⟩ | ⟨i, hi1, j, hj1, ai, aj, hij⟩
      · exact absurd h1 (two _ _ _ i j hi1 hj1 ai aj hij a)
      · exact absurd h2 (two _ _ _ i j hi1 hj1 ai aj hij b)
    generalize (asmData p op.inp p.inB op.nin).1 = l1 at not1
    generalize (asmData p op.out p.outB op.nout).1 = l2 at not1
    refine ⟨s1, ?_⟩
    rcases l1 with _ | ⟨a, _ | _⟩
    · rfl
    · rcases l2 with _ | ⟨b, _ | _⟩
      · rfl
      · exact absurd ⟨a, b, rfl, rfl⟩ not1
      · rfl
    · rfl
  | err s1 c => exact absurd trivial (M.wp_err this e).1
  | ub => exact absurd trivial (M.wp_ub this e)

end Operator
end Verif
