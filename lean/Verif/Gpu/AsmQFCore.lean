import Verif.Gpu.AsmQFRun

/-!
# A whole assembly on a device, and histories (helper lemmas)
-/

namespace Verif.Gpu

open Finset
open Verif.Basis (EMode)
open Verif.Operator (VPtr FVec LVec isBasisMode OField Oper Meaning Advances cont offset offset_succ offset_mono offset_add_lt
  countSizes countSizes_eq)

variable {α : Type} [CommRing α] {dv : Device} {op : GOper α} {S : Meaning α} {D : Dev α} {V : Nat → LVec α} {inv outv : VPtr}

/-! ## Applications keep the vectors of quadrature data that hold data -/

/-- After setup, the vectors of inputs with basis that hold data go on holding data. -/
def Kp {β : Type} (op : GOper α) (m : M (GSt α) β) : Prop := ∀ s s' a, m s = .ok s' a → s.done = true →
  s'.done = true ∧ ∀ i, (op.inp i).mode ≠ .none → (s.qIn i).valid = true → (s'.qIn i).valid = true

section
variable {β γ : Type}
theorem Kp.bind {m : M (GSt α) β} {f : β → M (GSt α) γ} (hm : Kp op m) (hf : ∀ a, Kp op (f a)) : Kp op (m >>= f) := by
  intro s s' a e hd
  rw [M.bind_apply] at e
  cases h1 : m s with
  | ok s1 b =>
    rw [h1] at e
    obtain ⟨h2, h3⟩ := hm _ _ _ h1 hd
    obtain ⟨h4, h5⟩ := hf b _ _ _ e h2
    exact ⟨h4, fun i hi hv => h5 i hi (h3 i hi hv)⟩
  | err s1 b => rw [h1] at e; cases e
  | ub => rw [h1] at e; cases e
theorem Kp.same {m : M (GSt α) β} (h : ∀ s s' a, m s = .ok s' a → s' = s) : Kp op m := by
  intro s s' a e hd
  rw [h s s' a e]
  exact ⟨hd, fun _ _ hv => hv⟩
theorem Kp.get : Kp op (getG : M (GSt α) (GSt α)) := .same fun s s' a e => by cases e; rfl
theorem Kp.pure {b : β} : Kp op (pure b : M (GSt α) β) := .same fun s s' a e => by cases e; rfl
theorem Kp.undef : Kp op (M.undef : M (GSt α) β) := .same fun s s' a e => by cases e
theorem Kp.fail {c : Err} : Kp op (M.fail c : M (GSt α) β) := .same fun s s' a e => by cases e
theorem Kp.check {p : Prop} [Decidable p] {c : Err} : Kp op (M.check p c : M (GSt α) Unit) := .same fun s s' a e => by
  by_cases hp : p
  · rw [M.check_true hp] at e; cases e; rfl
  · rw [M.check_false hp] at e; cases e
theorem Kp.ptr {p : Option β} : Kp op (ptrG p : M (GSt α) β) := by
  cases p
  · exact .undef
  · exact .pure
theorem Kp.lift {r : Res β} : Kp op (M.lift r : M (GSt α) β) := .same fun s s' a e => by
  cases r <;> cases e; rfl
theorem Kp.readV {p : VPtr} : Kp op (readVecG p : M (GSt α) (Buf α)) := .same fun s s' a e => by
  unfold readVecG at e
  cases p with
  | vec i =>
    dsimp only at e
    split at e
    · cases e; rfl
    · cases e
  | none => cases e
  | null => cases e
theorem Kp.mod {f : GSt α → GSt α} (h1 : ∀ s, (f s).done = s.done) (h2 : ∀ s, (f s).qIn = s.qIn) : Kp op (modG f) := by
  intro s s' a e hd
  cases e
  exact ⟨(h1 s).trans hd, fun i _ hv => by rw [h2]; exact hv⟩
theorem Kp.setQIn {i : Nat} {q : QVec α} (h : (op.inp i).mode = .none ∨ q.valid = true) : Kp op (setQIn i q) := by
  intro s s' a e hd
  cases e
  refine ⟨hd, fun j hj hv => ?_⟩
  show (Function.update s.qIn i q j).valid = true
  by_cases hji : j = i
  · subst hji
    rw [Function.update_self]
    rcases h with h | h
    · exact absurd h hj
    · exact h
  · rw [Function.update_of_ne hji]; exact hv
theorem Kp.setEv {k : EKey} {x : EVec α} : Kp op (setEv k x) := .mod (fun _ => rfl) (fun _ => rfl)
theorem Kp.setQOut {k : Nat} {x : QVec α} : Kp op (setQOut k x) := .mod (fun _ => rfl) (fun _ => rfl)
theorem Kp.loop {n : Nat} {body : Nat → M (GSt α) Unit} (h : ∀ i, Kp op (body i)) : Kp op (M.loop n body) := by
  induction n with
  | zero => exact .pure
  | succ n ih =>
    intro s s' a e hd
    rw [M.loop_succ] at e
    cases h1 : M.loop n body s with
    | ok s1 b =>
      rw [h1] at e
      obtain ⟨h2, h3⟩ := ih _ _ _ h1 hd
      obtain ⟨h4, h5⟩ := h n _ _ _ e h2
      exact ⟨h4, fun i hi hv => h5 i hi (h3 i hi hv)⟩
    | err s1 b => rw [h1] at e; cases e
    | ub => rw [h1] at e; cases e
end

theorem Kp.launch {f : Nat → Res (Buf α)} : Kp op (launchG f) :=
  .bind .get fun _ => .bind (.mod (fun _ => rfl) (fun _ => rfl)) fun _ => .lift
theorem Kp.readE {k : EKey} : Kp op (readEv k : M (GSt α) (Buf α)) :=
  .bind .get fun _ => .bind .check fun _ => .bind .check fun _ => .pure
theorem Kp.openE {k : EKey} {b : Bool} : Kp op (openEv k b : M (GSt α) (Buf α)) :=
  .bind .get fun _ => .bind .check fun _ => .bind .check fun _ => .pure
theorem Kp.storeE {k : EKey} {v : Buf α} : Kp op (storeEv k v) := .bind .get fun _ => .setEv

theorem kp_setup : Kp op (setupG op D) := by
  intro s s' a e hd
  unfold setupG at e
  rw [M.bind_apply] at e
  change (if s.done = true then _ else _ : M (GSt α) Unit) s = _ at e
  rw [if_pos hd] at e
  cases e
  exact ⟨hd, fun _ _ hv => hv⟩

theorem kp_gather {f : Nat} {p : VPtr} {k : EKey} : Kp op (gatherG op D f p k) :=
  .bind .ptr fun _ => .bind .readV fun _ => .bind .openE fun _ => .bind .launch fun _ => .storeE

theorem kp_gatherIf {f : Nat} {k : EKey} : Kp op (gatherIf op D inv f k) := by
  refine .bind .get fun s => ?_
  split
  · exact kp_gather
  · exact .pure

theorem kp_restrict {f : Nat} : Kp op (inputRestrict op D inv f) := by
  refine .bind .get fun s => ?_
  cases s.keyIn op f with
  | none => exact .pure
  | some k =>
    show Kp op (if _ then _ else _)
    split
    · exact .pure
    · exact .bind kp_gatherIf fun _ => .mod (fun _ => rfl) (fun _ => rfl)

theorem kp_basis {f : Nat} : Kp op (inputBasisG op D inv f) := by
  unfold inputBasisG
  split
  · rename_i hm
    refine .bind .get fun s => ?_
    cases s.keyIn op f with
    | none => exact .bind .readV fun _ => .bind .ptr fun _ => .setQIn (.inl hm)
    | some k => exact .bind .readE fun _ => .bind .setEv fun _ => .setQIn (.inl hm)
  · split
    · exact .bind .get fun s => .bind .ptr fun _ => .bind .ptr fun _ => .bind .readE fun _ => .bind .launch fun _ =>
        .setQIn (.inr rfl)
    · exact .pure

theorem kp_restore {f : Nat} : Kp op (inputRestore op f) := by
  unfold inputRestore
  split
  · rename_i hm
    refine .bind .get fun s => .bind .check fun _ => .bind (.setQIn (.inl hm)) fun _ => ?_
    cases s.keyIn op f with
    | none => exact .pure
    | some k => exact .bind .check fun _ => .setEv
  · exact .pure

theorem kp_qf : Kp op (qfApply op) := by
  refine .bind (.loop fun i => .bind .get fun s => .bind .check fun _ => ?_) fun _ => .bind .get fun s => .bind .check fun _ =>
    .loop fun o => .bind .get fun s => ?_
  · split
    · exact .undef
    · exact .pure
  · split
    · exact .undef
    · cases (s.qOut o).bor with
      | none => exact .setQOut
      | some k =>
        cases k with
        | ev k => exact .setEv
        | vec v => exact .undef

theorem kp_borrowOut {o : Nat} : Kp op (borrowOut op o) := by
  unfold borrowOut
  split
  · exact .bind .get fun s => .bind .ptr fun _ => .bind .openE fun _ => .bind .setEv fun _ => .setQOut
  · exact .pure

theorem kp_output {i f : Nat} : Kp op (outputG op D outv i f) := by
  refine .bind ?_ fun _ => .bind ?_ fun _ => .bind .get fun s => ?_
  · unfold basisOrNot
    split
    · exact .pure
    · split
      · exact .bind .get fun s => .bind .ptr fun _ => .bind .ptr fun _ => .bind .check fun _ => .bind .openE fun _ =>
          .bind .launch fun _ => .storeE
      · exact .fail
  · unfold giveBack
    split
    · exact .bind .get fun s => .bind .check fun _ => .bind .setQOut fun _ => .bind .ptr fun _ => .bind .check fun _ => .setEv
    · exact .pure
  · split
    · exact .pure
    · exact .bind .ptr fun _ => .bind .ptr fun _ => .bind .readE fun _ => .bind .readV fun _ => .bind .ptr fun _ =>
        .bind .launch fun _ => .mod (fun _ => rfl) (fun _ => rfl)

theorem kp_applyAdd {wk : Work α} : Kp op (applyAddG op D wk inv outv) := by
  unfold applyAddG
  split
  · exact .bind kp_setup fun _ => .bind .get fun s => .bind .setEv fun _ => .bind (.loop fun i => .bind .get fun _ =>
      .bind kp_restrict fun _ => kp_basis) fun _ => .bind (.loop fun _ => kp_borrowOut) fun _ => .bind kp_qf fun _ =>
      .bind (.loop fun _ => kp_restore) fun _ => .loop fun _ => .bind .get fun _ => kp_output
  · exact .pure

theorem kp_zero {p : VPtr} : Kp op (zeroVecG p : M (GSt α) Unit) := by
  intro s s' a e hd
  cases p with
  | vec i => cases e; exact ⟨hd, fun _ _ hv => hv⟩
  | none => cases e; exact ⟨hd, fun _ _ hv => hv⟩
  | null => cases e

theorem kp_apply {wk : Work α} : Kp op (applyG op D wk inv outv) := .bind (.loop fun _ => kp_zero) fun _ => kp_applyAdd

/-! ## States between calls -/

/-- Components that are neither first nor last are zero, or there are no vectors of components yet. -/
def Fresh (op : GOper α) (s : QSt α) : Prop :=
  s.act = [] ∨ ∀ j < op.host.cIn, j ≠ 0 → j ≠ op.host.cIn - 1 → Comp op s j 0

/-- Number of entries of the assembled vector. -/
def lenQF (op : GOper α) : Nat := op.ne * op.Q * op.host.cIn * op.host.cOut

/-- States between calls. -/
structure QGood (op : GOper α) (S : Meaning α) (s : QSt α) : Prop where
  g : GGood op S s.st
  dst : ∀ o, s.dst o = none
  act : s.act = [] ∨ (s.act = actPre op op.nin ∧ s.st.done = true)
  nOut : s.nOut = 0 ∨ s.nOut = op.host.cOut
  built : ∀ v, s.built = some v → v.len = lenQF op
  val : s.act ≠ [] → ∀ i < op.nin, (op.inp i).vec = .active → s.freed i = false → (s.st.qIn i).valid = true
  fr : s.act ≠ [] → ∀ i < op.nin, (op.inp i).vec = .active → s.freed i = true → (op.inp i).mode = .none

/-- The next assembly uses an array that has been freed. -/
def Bad (op : GOper α) (s : QSt α) : Prop := s.act ≠ [] ∧ Dangling op s

/-- Vectors of components are made. -/
theorem make_ok (h : GOK dv op S) {s : QSt α} (hn : NatSt op S V s.st.qIn op.nin s.st) (ha : s.act = []) :
    Tr (M.loop op.nin (makeAct op)) s fun (s' : QSt α) _ => s' = { s with st := s'.st, freed := s'.freed, act := actPre op op.nin } ∧
      NatSt op S V s'.st.qIn op.nin s'.st ∧ ∀ i < op.nin, (op.inp i).vec = .active → s'.freed i = false ∧
        (s'.st.qIn i).valid = true ∧ ∀ x, (s'.st.qIn i).buf.val x = 0 := by
  refine Tr.loop (fun m (s' : QSt α) => s' = { s with st := s'.st, freed := s'.freed, act := actPre op m } ∧
      NatSt op S V s'.st.qIn op.nin s'.st ∧ ∀ i < m, (op.inp i).vec = .active → s'.freed i = false ∧
        (s'.st.qIn i).valid = true ∧ ∀ x, (s'.st.qIn i).buf.val x = 0) ⟨?_, hn, fun i hi => absurd hi (by omega)⟩ ?_
  · show s = { s with act := [] }
    rw [← ha]
  rintro m hm s1 ⟨e1, n1, v1⟩
  unfold makeAct
  by_cases hac : (op.inp m).vec = .active
  · rw [if_pos hac]
    refine .modQ' ⟨?_, ?_, fun i hi hai => ?_⟩
    · rw [actPre_succ, if_pos hac]
      have hact : s1.act = actPre op m := by rw [e1]
      dsimp only
      rw [hact, e1]
    · exact n1.setIn h hac (b := ⟨(s1.st.qIn m).buf.len, fun _ => 0⟩) (x := true) rfl
    · show Function.update s1.freed m false i = false ∧ (Function.update s1.st.qIn m _ i).valid = true ∧
        ∀ x, (Function.update s1.st.qIn m _ i).buf.val x = 0
      by_cases him : i = m
      · subst him
        rw [Function.update_self, Function.update_self]
        exact ⟨rfl, rfl, fun _ => rfl⟩
      · rw [Function.update_of_ne him, Function.update_of_ne him]
        exact v1 i (by omega) hai
  · rw [if_neg hac]
    refine .pure ⟨?_, n1, fun i hi hai => ?_⟩
    · rw [actPre_succ, if_neg hac, List.append_nil]; exact e1
    · refine v1 i ?_ hai
      rcases Nat.lt_succ_iff_lt_or_eq.1 hi with h2 | rfl
      · exact h2
      · exact absurd hai hac

/-- The arrays of the outputs are taken. -/
theorem take_outs {s0 s : QSt α} (hb : Base op S V s0 s) (hd : ∀ o, ¬ (o < op.nout ∧ (op.out o).vec = .active) → s.dst o = none)
    (hdA : ∀ o < op.nout, (op.out o).vec = .active → (s.dst o).isSome = true) :
    Tr (M.loop op.nout (takeOutG op)) s fun s' _ => Base op S V s0 s' ∧ (∀ o, s'.dst o = none) ∧ s'.arr = s.arr ∧ s'.st.qIn = s.st.qIn := by
  refine Tr.mono (Tr.loop (fun m s' => Base op S V s0 s' ∧ (∀ o, ¬ (o < op.nout ∧ (op.out o).vec = .active) → s'.dst o = none) ∧
    (∀ o < m, s'.dst o = none) ∧ (∀ o, m ≤ o → s'.dst o = s.dst o) ∧ s'.arr = s.arr ∧ s'.st.qIn = s.st.qIn)
    ⟨hb, hd, fun o ho => absurd ho (by omega), fun _ _ => rfl, rfl, rfl⟩ ?_) ?_
  swap
  · rintro s' _ ⟨h1, h2, h3, h4, h5, h6⟩
    refine ⟨h1, fun o => ?_, h5, h6⟩
    by_cases ho : o < op.nout
    · exact h3 o ho
    · exact h2 o fun hh => ho hh.1
  rintro m hm s1 ⟨b1, d1, l1, g1, a1, q1⟩
  unfold takeOutG
  by_cases hac : (op.out m).vec = .active
  · rw [if_pos hac]
    refine .bind (.getQ' (.bind (.check (by rw [g1 m (le_refl _)]; exact hdA m hm hac) (.modQ' ⟨⟨?_, b1.act, b1.val, b1.nOut,
      b1.freed, b1.built, b1.reuse, b1.needs⟩, fun o ho => ?_, fun o ho => ?_, fun o ho => ?_, a1, q1⟩))))
    · have hn := b1.nat
      have hqo : ∀ o', (Function.update s1.st.qOut m { s1.st.qOut m with valid := false } o').buf.len = (s1.st.qOut o').buf.len ∧
          (Function.update s1.st.qOut m { s1.st.qOut m with valid := false } o').bor = none := by
        intro o'
        by_cases hoo : o' = m
        · subst hoo
          rw [Function.update_self]; exact ⟨rfl, hn.qout o'⟩
        · rw [Function.update_of_ne hoo]; exact ⟨rfl, hn.qout o'⟩
      exact ⟨⟨hn.fix.tabs, hn.fix.evIn, hn.fix.evOut, hn.fix.qInLen, fun o' => (hqo o').1.trans (hn.fix.qOutLen o'), hn.fix.wts,
        hn.fix.cached⟩, hn.vecs, hn.dn, hn.wr, hn.rd, fun o' => (hqo o').2, hn.borS, hn.borN, fun j h1 h2 =>
        goodIn_congr (s := s1.st) rfl rfl (fun _ _ => rfl) (hn.vals j h1 h2), hn.gath, fun _ _ => rfl⟩
    · show Function.update s1.dst m none o = none
      by_cases hom : o = m
      · rw [hom, Function.update_self]
      · rw [Function.update_of_ne hom]; exact d1 o ho
    · show Function.update s1.dst m none o = none
      by_cases hom : o = m
      · rw [hom, Function.update_self]
      · rw [Function.update_of_ne hom]; exact l1 o (by omega)
    · show Function.update s1.dst m none o = _
      rw [Function.update_of_ne (by omega)]; exact g1 o (by omega)
  · rw [if_neg hac]
    refine .pure ⟨b1, d1, fun o ho => ?_, fun o ho => g1 o (by omega), a1, q1⟩
    rcases Nat.lt_succ_iff_lt_or_eq.1 ho with h2 | rfl
    · exact l1 o h2
    · exact d1 o fun hh => hac hh.2

/-- The assembled array in the layout of its restriction. -/
theorem columns_of_done {P : Prop} (hP : P) {L : Nat → Nat → α} {b : Buf α} (hl : b.len = lenQF op)
    (hd : Done op S L P op.host.cIn 0 b) : ColumnsDev op.host S L b := by
  refine ⟨hl, fun e he i hi ha c hc o ho hao d hdd q hq => ?_⟩
  have hk : offset op.host.inp i + c < op.host.cIn := offset_add_lt op.host.inp hi ha hc
  have hp : e * op.Q + q < op.ne * op.Q := by
    have : (e + 1) * op.Q ≤ op.ne * op.Q := Nat.mul_le_mul_right _ he
    rw [Nat.succ_mul] at this
    have hq' : q < op.Q := hq
    omega
  have := hd hP _ o d (e * op.Q + q) (.inl hk) ho hao hdd hp
  rw [seen_eval hi ha hc hq L] at this
  rw [show (((offset op.host.inp i + c) * op.host.cOut + (offset op.host.out o + d)) * op.host.ne + e) * op.host.Q + q =
    qfPos op (offset op.host.inp i + c) o d + (e * op.Q + q) by
      unfold qfPos
      rw [show op.host.ne = op.ne from rfl, show op.host.Q = op.Q from rfl]
      ring]
  exact this

/-- What an assembly leaves. -/
structure AfterQF (op : GOper α) (S : Meaning α) (s s' : QSt α) (b : Buf α) : Prop where
  good : QGood op S s'
  vecs : s'.st.vecs = s.st.vecs
  fresh : Fresh op s'
  safe : ¬ Bad op s → ¬ Dangling op s'
  built : s'.built = s.built
  reuse : s'.reuse = s.reuse
  needs : s'.needs = s.needs
  len : b.len = lenQF op
  cols : Fresh op s → ColumnsDev op.host S s.st.L b

theorem core_ok (h : GOK dv op S) (hD : D.Real dv) (ha : Assemblable op) {s : QSt α} (hg : QGood op S s)
    (hp : PassiveReadyG op s.st) {given : Option Nat} (hgiv : ∀ n, given = some n → n = lenQF op) :
    TB (Bad op s) (assembleCoreG op D given) s (AfterQF op S s) := by
  have hset := setup_ok h hD ha.ne hg.g
  -- with vectors of components, setup does nothing
  have hset' : Tr (setupG op D) s.st fun t _ => t.done = true ∧ Rest op S t ∧ t.vecs = s.st.vecs ∧ (s.act ≠ [] → t = s.st) := by
    obtain ⟨t, u, e, h1, h2, h3⟩ := hset
    refine ⟨t, u, e, h1, h2, h3, fun hact => ?_⟩
    rcases hg.act with h4 | ⟨-, h4⟩
    · exact absurd h4 hact
    · unfold setupG at e
      rw [M.bind_apply] at e
      change (if s.st.done = true then _ else _ : M (GSt α) Unit) s.st = _ at e
      rw [if_pos h4] at e
      cases e
      rfl
  refine .bind (Tr.tb (Tr.mono (Tr.liftQ' hset') ?_))
  rintro s1 _ ⟨e1, d1, r1, v1, k1⟩
  have hp1 : PassiveReadyG op s1.st := by
    intro i hi hw hna
    obtain ⟨r, v, a1, a2, a3, a4⟩ := hp i hi hw hna
    exact ⟨r, v, a1, a2, by rw [v1]; exact a3, by rw [v1]; exact a4⟩
  refine .bind (Tr.tb (Tr.mono (Tr.liftQ' (nat_inputs h hD ha.ne d1 r1 hp1 (by rw [v1]; exact hg.g.v0))) ?_))
  rintro s2 _ ⟨e2, n2⟩
  have hne : op.host.cIn ≠ 0 := by have := ha.cin; omega
  have hnil : actPre op op.nin ≠ [] := by
    intro hc
    have := actPre_length (op := op) op.nin
    rw [hc] at this
    exact hne this.symm
  have n2' : NatSt op S s.st.vecs s2.st.qIn op.nin s2.st :=
    ⟨n2.fix, n2.vecs.trans v1, n2.dn, n2.wr, n2.rd, n2.qout, n2.borS, n2.borN, n2.vals, n2.gath, fun _ _ => rfl⟩
  have hact2 : s2.act = s.act := by rw [e2, e1]
  have hfr2 : s2.freed = s.freed := by rw [e2, e1]
  -- the state before the columns
  have hmk : Tr (makeActs op) s2 fun s3 _ => s3 = { s2 with st := s3.st, freed := s3.freed, act := actPre op op.nin } ∧
      NatSt op S s.st.vecs s3.st.qIn op.nin s3.st ∧
      (∀ i < op.nin, (op.inp i).vec = .active → s3.freed i = false → (s3.st.qIn i).valid = true) ∧
      (∀ i < op.nin, (op.inp i).vec = .active → s3.freed i = true → (op.inp i).mode = .none) ∧
      (Dangling op s3 → Bad op s) ∧ (Fresh op s → ∀ j < op.host.cIn, j ≠ 0 → j ≠ op.host.cIn - 1 → Comp op s3 j 0) := by
    refine .bind (.getQ' ?_)
    rw [hact2]
    by_cases hact : s.act = []
    · rw [if_pos hact]
      refine Tr.mono (make_ok h n2' (by rw [hact2]; exact hact)) ?_
      rintro s3 _ ⟨e3, n3, v3⟩
      refine ⟨by rw [hact2] at *; exact e3, n3, fun i hi hai _ => (v3 i hi hai).2.1, fun i hi hai hf => ?_, ?_, ?_⟩
      · rw [(v3 i hi hai).1] at hf; cases hf
      · rintro ⟨i, hi, hai, hf⟩
        rw [(v3 i hi hai).1] at hf; cases hf
      · intro _ j hj _ _ i hi hai c hc _ p hp
        exact (v3 i hi hai).2.2 _
    · rw [if_neg hact]
      obtain ⟨ha', hdn⟩ : s.act = actPre op op.nin ∧ s.st.done = true := hg.act.resolve_left hact
      have hq : ∀ i, (op.inp i).vec = .active → s2.st.qIn i = s.st.qIn i := fun i hai => by
        rw [n2.keep i hai, k1 hact]
      refine .pure ⟨?_, n2', fun i hi hai hf => ?_, fun i hi hai hf => ?_, ?_, ?_⟩
      · rw [← ha', ← hact2]
      · rw [hq i hai]; exact hg.val hact i hi hai (by rw [← hfr2]; exact hf)
      · exact hg.fr hact i hi hai (by rw [← hfr2]; exact hf)
      · rintro ⟨i, hi, hai, hf⟩
        exact ⟨hact, i, hi, hai, by rw [← hfr2]; exact hf⟩
      · intro hF j hj h0 h1 i hi hai c hc hij p hp
        rw [hq i hai]
        exact (hF.resolve_left hact) j hj h0 h1 i hi hai c hc hij p hp
  refine .bind (Tr.tb (Tr.mono hmk ?_))
  rintro s3 _ ⟨e3, n3, v3, f3, b3, z3⟩
  have hcnt : Tr (countOuts op) s3 fun s4 _ => s4 = { s3 with nOut := op.host.cOut } := by
    refine .bind (.getQ' ?_)
    have hno : s3.nOut = s.nOut := by rw [e3, e2, e1]
    rw [hno]
    rcases hg.nOut with h0 | h0
    · rw [if_pos h0]
      refine .modQ' ?_
      rw [countSizes_eq]
      rfl
    · rw [if_neg (by rw [h0]; have := ha.cout; omega)]
      refine .pure ?_
      rw [← h0, ← hno]
  refine .bind (Tr.tb (Tr.mono hcnt ?_))
  rintro s4 _ rfl
  have hlen : s3.act.length = op.host.cIn := by rw [e3, actPre_length]; rfl
  refine .bind (Tr.tb (.getQ' (.bind (Tr.tb (.check ⟨by rw [hlen]; exact ha.cin, ha.cout⟩ (.bind (Tr.tb (.modQ' ?_))))))))
  dsimp only
  rw [hlen]
  set s5 : QSt α := ⟨s3.st, s3.act, op.host.cOut, s3.freed, s3.built, s3.reuse, s3.needs,
    ⟨given.getD (op.ne * op.Q * op.host.cIn * op.host.cOut), fun _ => 0⟩, 0, s3.dst⟩ with hs5
  have hgl : given.getD (op.ne * op.Q * op.host.cIn * op.host.cOut) = lenQF op := by
    cases given with
    | none => rfl
    | some n => exact hgiv n rfl
  have hB5 : Dangling op s5 → Bad op s := b3
  have hbase : Base op S s.st.vecs s5 s5 := ⟨n3, by show s3.act = _; rw [e3], v3, rfl, rfl, rfl, rfl, rfl⟩
  have hdst : ∀ o, s5.dst o = none := by
    intro o
    show s3.dst o = none
    rw [e3, e2, e1]
    exact hg.dst o
  have hcol : TB (Dangling op s5) (M.loop op.host.cIn (columnG op op.host.cIn)) s5 fun s' _ =>
      ColSt op S s.st.vecs (Fresh op s) s5 op.host.cIn s' := by
    refine TB.loop (fun k s' => ColSt op S s.st.vecs (Fresh op s) s5 k s')
      ⟨hbase, by show 0 = _; simp, hgl, fun o _ => hdst o, fun h0 => absurd h0 (by omega), ?_, ?_⟩
      fun k hk s' hs' => column_ok h ha.ne hk hs'
    · intro j hj hh
      rcases hh with ⟨h0, -⟩ | ⟨hF, h1, h2⟩
      · omega
      · rw [if_neg (by omega)]
        exact z3 hF j hj h1 h2
    · intro _ k' o' d p hko
      omega
  refine .bind (TB.mono (hcol.imp (fun hh => ⟨hB5 hh.1, hh.2⟩) id) ?_)
  rintro s6 _ c6
  refine .inr (.bind (Tr.mono (take_outs c6.base c6.dst (c6.dstA ha.cin)) ?_))
  rintro s7 _ ⟨b7, d7, a7, q7⟩
  refine .bind (Tr.mono (Tr.liftQ' (res_all h b7.nat)) ?_)
  rintro s8 _ ⟨e8, dn8, r8, vv8, k8⟩
  refine .bind (.getQ' (.pure ?_))
  have hq8 : ∀ i, (op.inp i).vec = .active → s8.st.qIn i = s6.st.qIn i := fun i hai => by rw [k8 i hai, q7]
  have hfr8 : s8.freed = s3.freed := by
    have : s8.freed = s7.freed := by rw [e8]
    rw [this, b7.freed]
  have harr : s8.arr = s6.arr := by
    have : s8.arr = s7.arr := by rw [e8]
    rw [this, a7]
  have hact8 : s8.act = actPre op op.nin := by
    have : s8.act = s7.act := by rw [e8]
    rw [this, b7.act]
  have hbu : s8.built = s.built := by
    have h1 : s8.built = s7.built := by rw [e8]
    have h2 : s3.built = s.built := by rw [e3, e2, e1]
    rw [h1, b7.built, ← h2]
  have hre : s8.reuse = s.reuse := by
    have h1 : s8.reuse = s7.reuse := by rw [e8]
    have h2 : s3.reuse = s.reuse := by rw [e3, e2, e1]
    rw [h1, b7.reuse, ← h2]
  have hnd : s8.needs = s.needs := by
    have h1 : s8.needs = s7.needs := by rw [e8]
    have h2 : s3.needs = s.needs := by rw [e3, e2, e1]
    rw [h1, b7.needs, ← h2]
  refine ⟨⟨⟨by rw [vv8]; exact hg.g.v0, fun _ => r8⟩, fun o => ?_, .inr ⟨hact8, dn8⟩, .inr ?_, by rw [hbu]; exact hg.built,
    fun _ i hi hai hf => ?_, fun _ i hi hai hf => ?_⟩, vv8, .inr fun j hj h0 h1 i hi hai c hc hij p hp => ?_, fun hnb => ?_,
    hbu, hre, hnd, by rw [harr, c6.len]; rfl, fun hF => ?_⟩
  · have : s8.dst = s7.dst := by rw [e8]
    rw [this]; exact d7 o
  · have : s8.nOut = s7.nOut := by rw [e8]
    rw [this, b7.nOut]
  · rw [hq8 i hai]
    exact c6.base.val i hi hai (by rw [c6.base.freed]; show s3.freed i = false; rw [← hfr8]; exact hf)
  · exact f3 i hi hai (by rw [← hfr8]; exact hf)
  · rw [hq8 i hai]
    have := c6.ins j hj (.inl ⟨ha.cin, .inl hj⟩) i hi hai c hc hij p hp
    rwa [if_neg (by omega)] at this
  · rintro ⟨i, hi, hai, hf⟩
    exact hnb (b3 ⟨i, hi, hai, by rw [← hfr8]; exact hf⟩)
  · rw [harr]
    exact columns_of_done hF c6.len c6.done

end Verif.Gpu
