import Verif.Gpu.AsmQFIn
import Verif.Operator.AssembleLemmas

/-!
# Columns of an assembly on a device (helper lemmas)
-/

namespace Verif.Gpu

open Finset
open Verif.Basis (EMode)
open Verif.Operator (VPtr FVec LVec isBasisMode OField Oper Meaning Advances cont offset offset_succ offset_mono offset_add_lt
  countSizes countSizes_eq)

/-! ## Calls that succeed unless `B` -/

/-- The call succeeds and its result satisfies `Q`, or `B` and it does not succeed. -/
def TB {σ β : Type} (B : Prop) (m : M σ β) (s : σ) (Q : σ → β → Prop) : Prop :=
  (B ∧ ∀ s' a, m s ≠ .ok s' a) ∨ Tr m s Q

section
variable {σ β γ : Type} {B : Prop} {s : σ} {Q : σ → β → Prop}
theorem Tr.tb {m : M σ β} (h : Tr m s Q) : TB B m s Q := .inr h
theorem TB.bind {m : M σ β} {f : β → M σ γ} {Q : σ → γ → Prop} (h : TB B m s (fun s a => TB B (f a) s Q)) :
    TB B (m >>= f) s Q := by
  rcases h with ⟨hB, h⟩ | ⟨s1, a, e, ⟨hB, h⟩ | h⟩
  · refine .inl ⟨hB, fun s' c e => ?_⟩
    rw [M.bind_apply] at e
    cases hm : m s with
    | ok s1 b => exact h s1 b hm
    | err s1 b => rw [hm] at e; cases e
    | ub => rw [hm] at e; cases e
  · refine .inl ⟨hB, fun s' c e' => ?_⟩
    rw [M.bind_apply, e] at e'
    exact h s' c e'
  · exact .inr (.bind ⟨s1, a, e, h⟩)
theorem TB.mono {m : M σ β} {Q' : σ → β → Prop} (h : TB B m s Q') (hQ : ∀ s a, Q' s a → Q s a) : TB B m s Q :=
  h.imp id fun h => h.mono hQ
theorem TB.loop {n : Nat} {body : Nat → M σ Unit} (I : Nat → σ → Prop) (h0 : I 0 s)
    (hb : ∀ i < n, ∀ s, I i s → TB B (body i) s (fun s _ => I (i + 1) s)) : TB B (M.loop n body) s (fun s _ => I n s) := by
  induction n with
  | zero => exact .inr ⟨s, (), rfl, h0⟩
  | succ n ih =>
    rcases ih fun i hi => hb i (by omega) with ⟨hB, h⟩ | ⟨s1, u, e1, h1⟩
    · refine .inl ⟨hB, fun s' c e => ?_⟩
      rw [M.loop_succ] at e
      cases hm : M.loop n body s with
      | ok s1 b => exact h s1 b hm
      | err s1 b => rw [hm] at e; cases e
      | ub => rw [hm] at e; cases e
    · rcases hb n (by omega) s1 h1 with ⟨hB, h⟩ | ⟨s2, _, e2, h2⟩
      · refine .inl ⟨hB, fun s' c e => ?_⟩
        rw [M.loop_succ, e1] at e
        exact h s' c e
      · exact .inr ⟨s2, (), by rw [M.loop_succ, e1]; exact e2, h2⟩
end

variable {α : Type} [CommRing α] {dv : Device} {op : GOper α} {S : Meaning α} {D : Dev α} {V : Nat → LVec α}

theorem Tr.getQ' {s : QSt α} {Q : QSt α → QSt α → Prop} (h : Q s s) : Tr getQ s Q := ⟨s, s, rfl, h⟩
theorem Tr.modQ' {s : QSt α} {f : QSt α → QSt α} {Q : QSt α → Unit → Prop} (h : Q (f s) ()) : Tr (modQ f) s Q := ⟨_, _, rfl, h⟩
theorem Tr.liftQ' {β : Type} {m : M (GSt α) β} {s : QSt α} {Q : GSt α → β → Prop} (h : Tr m s.st Q) :
    Tr (liftQ m) s (fun s' a => s' = { s with st := s'.st } ∧ Q s'.st a) := by
  obtain ⟨t, a, e, h⟩ := h
  exact ⟨{ s with st := t }, a, by unfold liftQ; rw [e], rfl, h⟩

/-! ## Numbering of components -/

/-- `qf_active_in` for the inputs `< m`. -/
def actPre (op : GOper α) (m : Nat) : List (Nat × Nat) :=
  (List.range m).flatMap fun i => if (op.inp i).vec = .active then (List.range (op.inp i).size).map fun c => (i, c) else []

theorem actPre_succ (m : Nat) : actPre op (m + 1) = actPre op m ++
    (if (op.inp m).vec = .active then (List.range (op.inp m).size).map fun c => (m, c) else []) := by
  unfold actPre
  rw [List.range_succ, List.flatMap_append]
  simp

theorem actPre_length (m : Nat) : (actPre op m).length = offset op.host.inp m := by
  induction m with
  | zero => simp [actPre, offset]
  | succ m ih =>
    rw [actPre_succ, List.length_append, ih, offset_succ]
    have e1 : (op.host.inp m).vec = (op.inp m).vec := rfl
    have e2 : (op.host.inp m).size = (op.inp m).size := rfl
    rw [e1, e2]
    split
    · simp
    · simp

theorem actPre_get {m k i c : Nat} : (actPre op m)[k]? = some (i, c) ↔
    i < m ∧ (op.inp i).vec = .active ∧ c < (op.inp i).size ∧ k = offset op.host.inp i + c := by
  induction m with
  | zero => simp [actPre]
  | succ m ih =>
    rw [actPre_succ]
    by_cases hk : k < offset op.host.inp m
    · rw [List.getElem?_append_left (by rw [actPre_length]; exact hk), ih]
      constructor
      · rintro ⟨h1, h2⟩; exact ⟨by omega, h2⟩
      · rintro ⟨h1, h2, h3, h4⟩
        refine ⟨?_, h2, h3, h4⟩
        by_contra hc
        obtain rfl : i = m := by omega
        omega
    · rw [List.getElem?_append_right (by rw [actPre_length]; omega), actPre_length]
      constructor
      · intro h
        split at h
        · rename_i ha
          rw [List.getElem?_map] at h
          cases hr : (List.range (op.inp m).size)[k - offset op.host.inp m]? with
          | none => rw [hr] at h; cases h
          | some x =>
            rw [hr] at h
            simp only [Option.map_some, Option.some.injEq, Prod.mk.injEq] at h
            obtain ⟨rfl, rfl⟩ := h
            rw [List.getElem?_eq_some_iff] at hr
            obtain ⟨h1, h2⟩ := hr
            rw [List.getElem_range] at h2
            rw [List.length_range] at h1
            exact ⟨by omega, ha, by omega, by omega⟩
        · cases h
      · rintro ⟨h1, h2, h3, h4⟩
        have him : i = m := by
          by_contra hc
          have := offset_add_lt op.host.inp (i := i) (n := m) (c := c) (by omega) h2 h3
          omega
        subst him
        rw [if_pos h2, List.getElem?_map, h4, Nat.add_sub_cancel_left, List.getElem?_range h3]
        rfl

/-- Components have different numbers. -/
theorem comp_inj {i c i' c' : Nat} (hi : i < op.nin) (ha : (op.inp i).vec = .active) (hc : c < (op.inp i).size)
    (hi' : i' < op.nin) (ha' : (op.inp i').vec = .active) (hc' : c' < (op.inp i').size)
    (e : offset op.host.inp i + c = offset op.host.inp i' + c') : i = i' ∧ c = c' := by
  have h1 := (actPre_get (op := op) (m := op.nin) (k := offset op.host.inp i + c) (i := i) (c := c)).2 ⟨hi, ha, hc, rfl⟩
  have h2 := (actPre_get (op := op) (m := op.nin) (k := offset op.host.inp i + c) (i := i') (c := c')).2 ⟨hi', ha', hc', e⟩
  rw [h1] at h2
  simpa using h2

/-! ## State during the columns -/

/-- Component number `j` of the active inputs has the value `y` at all points. -/
def Comp (op : GOper α) (s : QSt α) (j : Nat) (y : α) : Prop :=
  ∀ i < op.nin, (op.inp i).vec = .active → ∀ c < (op.inp i).size, offset op.host.inp i + c = j → ∀ p < op.ne * op.Q,
    (s.st.qIn i).buf.val (c * (op.ne * op.Q) + p) = y

/-- An array that components point into has been freed. -/
def Dangling (op : GOper α) (s : QSt α) : Prop := ∃ i < op.nin, (op.inp i).vec = .active ∧ s.freed i = true

/-- What all steps keep. -/
structure Base (op : GOper α) (S : Meaning α) (V : Nat → LVec α) (s0 s : QSt α) : Prop where
  nat : NatSt op S V s.st.qIn op.nin s.st
  act : s.act = actPre op op.nin
  val : ∀ i < op.nin, (op.inp i).vec = .active → s.freed i = false → (s.st.qIn i).valid = true
  nOut : s.nOut = op.host.cOut
  freed : s.freed = s0.freed
  built : s.built = s0.built
  reuse : s.reuse = s0.reuse
  needs : s.needs = s0.needs

/-- The array of an active input changes. -/
theorem NatSt.setIn (h : GOK dv op S) {s : GSt α} {Q0 : Nat → QVec α} (hs : NatSt op S V Q0 op.nin s) {i : Nat}
    (ha : (op.inp i).vec = .active) {b : Buf α} (hb : b.len = (s.qIn i).buf.len) {x : Bool} :
    NatSt op S V (Function.update s.qIn i { s.qIn i with valid := x, buf := b }) op.nin
      { s with qIn := Function.update s.qIn i { s.qIn i with valid := x, buf := b } } := by
  have hne : ∀ g, g ≠ i → Function.update s.qIn i { s.qIn i with valid := x, buf := b } g = s.qIn g :=
    fun g hg => Function.update_of_ne hg _ _
  refine ⟨⟨hs.fix.tabs, hs.fix.evIn, hs.fix.evOut, fun g h1 h2 => ?_, hs.fix.qOutLen, fun g h1 h2 => ?_, hs.fix.cached⟩,
    hs.vecs, hs.dn, hs.wr, hs.rd, hs.qout, fun j h1 h2 h3 => ?_, fun g h1 h2 => ?_, fun j h1 h2 => ?_, hs.gath, fun _ _ => rfl⟩
  · show (Function.update s.qIn i { s.qIn i with valid := x, buf := b } g).buf.len = _
    by_cases hg : g = i
    · subst hg; rw [Function.update_self]; exact hb.trans (hs.fix.qInLen g h1 h2)
    · rw [hne g hg]; exact hs.fix.qInLen g h1 h2
  · have hg : g ≠ i := by
      rintro rfl
      have := h.inp g h1
      unfold GInOK at this
      rw [h2] at this
      rw [this.1] at ha
      cases ha
    show (Function.update s.qIn i _ g).valid = _ ∧ (Function.update s.qIn i _ g).bor = _ ∧
      (Function.update s.qIn i _ g).buf.len = _ ∧ ∀ e < op.ne, ∀ q < op.Q, (Function.update s.qIn i _ g).buf.val _ = _
    rw [hne g hg]; exact hs.fix.wts g h1 h2
  · show (Function.update s.qIn i _ j).bor = _
    rw [hne j (by rintro rfl; exact h2 ha)]; exact hs.borS j h1 h2 h3
  · show (Function.update s.qIn i { s.qIn i with valid := x, buf := b } g).bor = _
    by_cases hg : g = i
    · subst hg; rw [Function.update_self]; exact hs.borN g h1 h2
    · rw [hne g hg]; exact hs.borN g h1 h2
  · exact goodIn_congr (s := s) (hne j (by rintro rfl; exact h2 ha)) rfl (fun _ _ => rfl) (hs.vals j h1 h2)

/-- `CeedVectorSetValue` on a component. -/
theorem setAct_ok (h : GOK dv op S) {s0 s : QSt α} (hs : Base op S V s0 s) {k : Nat} (hk : k < op.host.cIn) (x : α) :
    TB (Dangling op s0) (setAct op k x) s fun s' _ => Base op S V s0 s' ∧ s' = { s with st := s'.st } ∧ Comp op s' k x ∧
      (∀ j, j ≠ k → ∀ y, Comp op s j y → Comp op s' j y) ∧ s'.st.qOut = s.st.qOut := by
  obtain ⟨⟨i, c⟩, hg⟩ : ∃ a, (actPre op op.nin)[k]? = some a := by
    rw [← Option.isSome_iff_exists, isSome_getElem?]
    show k < (actPre op op.nin).length
    rw [actPre_length]
    exact hk
  obtain ⟨hi, ha, hc, hkc⟩ := actPre_get.1 hg
  have hw : (op.inp i).mode ≠ .weight := by
    intro hw
    have := h.inp i hi
    unfold GInOK at this
    rw [hw] at this
    rw [this.1] at ha
    cases ha
  have hlen := hs.nat.fix.qInLen i hi hw
  have hle : (c + 1) * (op.ne * op.Q) ≤ (s.st.qIn i).buf.len := by
    rw [hlen, mul_comm]; exact Nat.mul_le_mul_left _ hc
  by_cases hf : s.freed i = true
  · refine .inl ⟨⟨i, hi, ha, by rw [← hs.freed]; exact hf⟩, fun s' a e => ?_⟩
    unfold setAct at e
    rw [M.bind_apply] at e
    simp only [getQ, Out.bind, hs.act, hg, hf, true_or, if_true] at e
    cases e
  refine .inr (.bind (.getQ' ?_))
  rw [hs.act, hg]
  show Tr (if _ then _ else _ : M (QSt α) Unit) s _
  rw [if_neg (by rw [not_or]; exact ⟨hf, by omega⟩)]
  set b : Buf α := ⟨(s.st.qIn i).buf.len, fun y =>
        if c * (op.ne * op.Q) ≤ y ∧ y < (c + 1) * (op.ne * op.Q) then x else (s.st.qIn i).buf.val y⟩ with hb
  refine Tr.mono (Tr.liftQ' (Q := fun t _ => t = { s.st with
    qIn := Function.update s.st.qIn i { s.st.qIn i with buf := b } }) (.mod rfl)) ?_
  rintro s' _ ⟨e1, e2⟩
  have hq : ∀ g, g ≠ i → s'.st.qIn g = s.st.qIn g := fun g hg => by rw [e2]; exact Function.update_of_ne hg _ _
  have hqi : s'.st.qIn i = { s.st.qIn i with buf := b } := by rw [e2]; exact Function.update_self _ _ _
  have hfr : s'.freed = s.freed := by rw [e1]
  refine ⟨⟨?_, by rw [e1]; exact hs.act, fun g h1 h2 h3 => ?_, by rw [e1]; exact hs.nOut, hfr.trans hs.freed,
    by rw [e1]; exact hs.built, by rw [e1]; exact hs.reuse, by rw [e1]; exact hs.needs⟩, by rw [← hs.act]; exact e1, ?_, ?_, by rw [e2]⟩
  · have := hs.nat.setIn h ha (b := b) (x := (s.st.qIn i).valid) rfl
    rw [e2]
    exact this
  · rw [hfr] at h3
    have := hs.val g h1 h2 h3
    by_cases hgi : g = i
    · subst hgi; rw [hqi]; exact this
    · rw [hq g hgi]; exact this
  · intro i' hi' ha' c' hc' e p hp
    obtain ⟨rfl, rfl⟩ := comp_inj hi ha hc hi' ha' hc' (by omega)
    rw [hqi]
    show (if _ then _ else _) = _
    rw [if_pos]
    constructor
    · omega
    · rw [Nat.succ_mul]; omega
  · intro j hj y hy i' hi' ha' c' hc' e p hp
    by_cases hii : i' = i
    · subst hii
      rw [hqi]
      show (if _ then _ else _) = _
      have hcc : c' ≠ c := by rintro rfl; omega
      rw [if_neg]
      · exact hy i' hi' ha' c' hc' e p hp
      · rintro ⟨h1, h2⟩
        rcases Nat.lt_or_gt_of_ne hcc with h3 | h3
        · have : (c' + 1) * (op.ne * op.Q) ≤ c * (op.ne * op.Q) := Nat.mul_le_mul_right _ h3
          rw [Nat.succ_mul] at this
          omega
        · have : (c + 1) * (op.ne * op.Q) ≤ c' * (op.ne * op.Q) := Nat.mul_le_mul_right _ h3
          omega
    · rw [hq i' hii]
      exact hy i' hi' ha' c' hc' e p hp

/-! ## The QFunction -/

/-- What the QFunction sees at point `p` when component number `k` is one. -/
def seen (op : GOper α) (S : Meaning α) (L : Nat → Nat → α) (k p : Nat) : Nat → Nat → α := fun j c =>
  if j < op.nin ∧ c < (op.inp j).size then
    if (op.inp j).vec = .active then if offset op.host.inp j + c = k then 1 else 0
    else S.inVal op.host L .null (p / op.Q) j (c * op.Q + p % op.Q)
  else 0

theorem readQuads_seen (h : GOK dv op S) {s0 s : QSt α} (hs : Base op S V s0 s) {k : Nat}
    (hc : ∀ j, Comp op s j (if j = k then 1 else 0)) {p : Nat} (hp : p < op.ne * op.Q) :
    readQuads op s.st p = seen op S s.st.L k p := by
  funext j c
  unfold readQuads seen
  by_cases hj : j < op.nin ∧ c < (op.inp j).size
  · rw [if_pos hj, if_pos hj]
    by_cases ha : (op.inp j).vec = .active
    · rw [if_pos ha]
      have hb := hs.nat.borN j hj.1 (.inl ha)
      have : s.st.arr (s.st.qIn j) = (s.st.qIn j).buf := by unfold GSt.arr; rw [hb]
      rw [this]
      exact hc (offset op.host.inp j + c) j hj.1 ha c hj.2 rfl p hp
    · rw [if_neg ha]
      have hv := (hs.nat.vals j hj.1 ha).2.2 c hj.2 (p / op.Q) (by
        rw [Nat.div_lt_iff_lt_mul h.pts]; exact hp) (p % op.Q) (Nat.mod_lt _ h.pts)
      rw [mul_comm (p / op.Q), Nat.div_add_mod] at hv
      exact hv
  · rw [if_neg hj, if_neg hj]

/-- What a column holds. -/
theorem seen_eval {i c o d e q : Nat} (hi : i < op.nin) (ha : (op.inp i).vec = .active)
    (hc : c < (op.inp i).size) (hq : q < op.Q) (L : Nat → Nat → α) :
    op.g (seen op S L (offset op.host.inp i + c) (e * op.Q + q)) o d =
      op.host.eval (S.mix op.host L e (Operator.unit op.host i c)) o (d * op.Q + q) := by
  unfold Oper.eval
  rw [if_neg (show ¬ op.host.isId = true by simp [GOper.host])]
  show _ = op.g (fun j c' => S.mix op.host L e (Operator.unit op.host i c) j (c' * op.Q + (d * op.Q + q) % op.Q)) o
    ((d * op.Q + q) / op.Q)
  rw [(divQ hq).1, (divQ hq).2]
  congr 1
  funext j c'
  unfold seen Meaning.mix
  have e1 : op.host.nin = op.nin := rfl
  have e2 : op.host.Q = op.Q := rfl
  have e3 : (op.host.inp j).size = (op.inp j).size := rfl
  have e4 : (op.host.inp j).vec = (op.inp j).vec := rfl
  rw [e1, e2, e3, e4, (divQ hq).1, (divQ hq).2]
  have hiff : c' * op.Q + q < op.Q * (op.inp j).size ↔ c' < (op.inp j).size := by
    constructor
    · intro h1
      by_contra hcc
      have : op.Q * (op.inp j).size ≤ op.Q * c' := Nat.mul_le_mul_left _ (by omega)
      have : op.Q * c' = c' * op.Q := mul_comm _ _
      omega
    · intro h1
      have : op.Q * (c' + 1) ≤ op.Q * (op.inp j).size := Nat.mul_le_mul_left _ h1
      have : op.Q * (c' + 1) = c' * op.Q + op.Q := by ring
      omega
  by_cases hj : j < op.nin ∧ c' < (op.inp j).size
  · rw [if_pos hj, if_pos (show j < op.nin ∧ c' * op.Q + q < op.Q * (op.inp j).size from ⟨hj.1, hiff.2 hj.2⟩)]
    by_cases haj : (op.inp j).vec = .active
    · rw [if_pos haj, if_pos haj]
      unfold Operator.unit
      rw [e2, (divQ hq).1]
      refine if_congr ⟨fun e => ?_, ?_⟩ rfl rfl
      · exact comp_inj hj.1 haj hj.2 hi ha hc e
      · rintro ⟨rfl, rfl⟩; rfl
    · rw [if_neg haj, if_neg haj]
  · rw [if_neg hj, if_neg fun hh => hj ⟨hh.1, hiff.1 hh.2⟩]

/-- Reading changes nothing, and succeeds only if all inputs hold data. -/
theorem readIns_ok {s s' : GSt α} {n : Nat} {u : Unit} (e : M.loop n (readInG op) s = .ok s' u) :
    s' = s ∧ ∀ i < n, (s.qIn i).bor.isSome = true ∨ (s.qIn i).valid = true := by
  induction n generalizing s' with
  | zero => cases e; exact ⟨rfl, fun i hi => absurd hi (by omega)⟩
  | succ n ih =>
    rw [M.loop_succ] at e
    cases hm : M.loop n (readInG op) s with
    | err s1 b => rw [hm] at e; cases e
    | ub => rw [hm] at e; cases e
    | ok s1 b =>
      rw [hm] at e
      obtain ⟨rfl, h1⟩ := ih hm
      change readInG op n s1 = _ at e
      unfold readInG at e
      rw [M.bind_apply] at e
      change (M.check ((s1.qIn n).bor.isSome = true ∨ (s1.qIn n).valid = true) Err.backend >>= fun _ => _ : M (GSt α) Unit) s1 = _ at e
      rw [M.bind_apply] at e
      by_cases hc : (s1.qIn n).bor.isSome = true ∨ (s1.qIn n).valid = true
      · rw [M.check_true hc] at e
        change (if _ then _ else _ : M (GSt α) Unit) s1 = _ at e
        split at e
        · cases e
        · cases e
          refine ⟨rfl, fun i hi => ?_⟩
          rcases Nat.lt_succ_iff_lt_or_eq.1 hi with h2 | rfl
          · exact h1 i h2
          · exact hc
      · rw [M.check_false hc] at e
        cases e

theorem readAll_ok {s0 s : QSt α} (h : GOK dv op S) (hs : Base op S V s0 s) :
    TB (Dangling op s0) (liftQ (M.loop op.nin (readInG op))) s fun s' _ => s' = s := by
  by_cases hv : ∀ i < op.nin, (op.inp i).vec = .active → (s.st.qIn i).valid = true
  · refine .inr (Tr.mono (Tr.liftQ' (Q := fun t _ => t = s.st) (Tr.loop (fun _ t => t = s.st) rfl ?_)) ?_)
    · rintro i hi t rfl
      have hboth : ((s.st.qIn i).bor.isSome = true ∨ (s.st.qIn i).valid = true) ∧
          op.ne * op.Q * (op.inp i).size ≤ (s.st.arr (s.st.qIn i)).len := by
        by_cases ha : (op.inp i).vec = .active
        · have hw : (op.inp i).mode ≠ .weight := by
            intro hw
            have := h.inp i hi
            unfold GInOK at this
            rw [hw] at this
            rw [this.1] at ha
            cases ha
          refine ⟨.inr (hv i hi ha), ?_⟩
          have : s.st.arr (s.st.qIn i) = (s.st.qIn i).buf := by
            unfold GSt.arr; rw [hs.nat.borN i hi (.inl ha)]
          rw [this, hs.nat.fix.qInLen i hi hw]
        · obtain ⟨h1, h2, -⟩ := hs.nat.vals i hi ha
          exact ⟨h1, h2⟩
      refine .bind (.get (.bind (.check hboth.1 ?_)))
      rw [if_neg (by omega)]
      exact .pure rfl
    · rintro s' _ ⟨e1, e2⟩
      rw [e2] at e1
      exact e1
  · push Not at hv
    obtain ⟨i, hi, ha, hv⟩ := hv
    refine .inl ⟨⟨i, hi, ha, ?_⟩, fun s' u e => ?_⟩
    · cases hf : s.freed i with
      | false => exact absurd (hs.val i hi ha hf) hv
      | true => rw [← hs.freed]; exact hf
    · unfold liftQ at e
      cases hm : M.loop op.nin (readInG op) s.st with
      | err s1 b => rw [hm] at e; cases e
      | ub => rw [hm] at e; cases e
      | ok s1 b =>
        rcases (readIns_ok hm).2 i hi with h1 | h1
        · rw [hs.nat.borN i hi (.inl ha)] at h1; cases h1
        · exact hv h1

/-! ## One column -/

/-- Position of the values of component `d` of output `o` in column `k`. -/
def qfPos (op : GOper α) (k o d : Nat) : Nat := (k * op.host.cOut + (offset op.host.out o + d)) * (op.ne * op.Q)

/-- Columns `< k`, and outputs `< o` of column `k`, are right if `P`. -/
def Done (op : GOper α) (S : Meaning α) (L : Nat → Nat → α) (P : Prop) (k o : Nat) (b : Buf α) : Prop :=
  P → ∀ k' o' d p, k' < k ∨ k' = k ∧ o' < o → o' < op.nout → (op.out o').vec = .active → d < (op.out o').size →
    p < op.ne * op.Q → b.val (qfPos op k' o' d + p) = op.g (seen op S L k' p) o' d

/-- Values of the components before column `k`; the second case only if `P`. -/
def InCols (op : GOper α) (P : Prop) (k : Nat) (s : QSt α) : Prop :=
  ∀ j < op.host.cIn, (0 < k ∧ (j < k ∨ j = op.host.cIn - 1)) ∨ (P ∧ j ≠ 0 ∧ j ≠ op.host.cIn - 1) →
    Comp op s j (if 0 < k ∧ j = k - 1 then 1 else 0)

/-- State before column `k`. -/
structure ColSt (op : GOper α) (S : Meaning α) (V : Nat → LVec α) (P : Prop) (s0 : QSt α) (k : Nat) (s : QSt α) : Prop where
  base : Base op S V s0 s
  pos : s.pos = k * op.host.cOut * (op.ne * op.Q)
  len : s.arr.len = op.ne * op.Q * op.host.cIn * op.host.cOut
  dst : ∀ o, ¬ (o < op.nout ∧ (op.out o).vec = .active) → s.dst o = none
  dstA : 0 < k → ∀ o < op.nout, (op.out o).vec = .active → (s.dst o).isSome = true
  ins : InCols op P k s
  done : Done op S (fun v => (V v).buf.val) P k 0 s.arr

/-- State while the outputs of column `k` are written. -/
structure QOutSt (op : GOper α) (S : Meaning α) (V : Nat → LVec α) (P : Prop) (s0 s1 : QSt α) (k o : Nat) (s : QSt α) : Prop where
  base : Base op S V s0 s
  qin : s.st.qIn = s1.st.qIn
  pos : s.pos = s1.pos
  len : s.arr.len = op.ne * op.Q * op.host.cIn * op.host.cOut
  dst : s.dst = s1.dst
  done : Done op S (fun v => (V v).buf.val) P k o s.arr

theorem write_out (h : GOK dv op S) {P : Prop} {s0 s1 s : QSt α} {k o : Nat} (hk : k < op.host.cIn) (ho : o < op.nout)
    (hd : ∀ o, ¬ (o < op.nout ∧ (op.out o).vec = .active) → s1.dst o = none)
    (hdA : ∀ o < op.nout, (op.out o).vec = .active → s1.dst o = some (qfPos op k o 0))
    {y : Nat → Nat → Nat → α} (hy : P → ∀ p < op.ne * op.Q, ∀ o d, y o d p = op.g (seen op S (fun v => (V v).buf.val) k p) o d)
    (hs : QOutSt op S V P s0 s1 k o s) : Tr (writeTo op y o) s fun s' _ => QOutSt op S V P s0 s1 k (o + 1) s' := by
  refine .bind (.getQ' ?_)
  rw [hs.dst]
  by_cases ha : (op.out o).vec = .active
  · rw [hdA o ho ha]
    have hoff : offset op.host.out o + (op.out o).size ≤ op.host.cOut := by
      have h1 := offset_succ op.host.out o
      rw [if_pos (show (op.host.out o).vec = .active from ha)] at h1
      have h2 : offset op.host.out (o + 1) ≤ offset op.host.out op.nout := offset_mono op.host.out ho
      have h3 : op.host.cOut = offset op.host.out op.nout := rfl
      have h4 : (op.host.out o).size = (op.out o).size := rfl
      omega
    have hend : qfPos op k o 0 + op.ne * op.Q * (op.out o).size ≤ s.arr.len := by
      rw [hs.len]
      unfold qfPos
      have h1 : (k * op.host.cOut + (offset op.host.out o + 0)) * (op.ne * op.Q) + op.ne * op.Q * (op.out o).size =
        (k * op.host.cOut + (offset op.host.out o + (op.out o).size)) * (op.ne * op.Q) := by ring
      have h2 : k * op.host.cOut + (offset op.host.out o + (op.out o).size) ≤ op.host.cIn * op.host.cOut := by
        have : (k + 1) * op.host.cOut ≤ op.host.cIn * op.host.cOut := Nat.mul_le_mul_right _ hk
        rw [Nat.succ_mul] at this
        omega
      calc _ = _ := h1
        _ ≤ op.host.cIn * op.host.cOut * (op.ne * op.Q) := Nat.mul_le_mul_right _ h2
        _ = _ := by ring
    show Tr (if _ then _ else _ : M (QSt α) Unit) s _
    rw [if_neg (by omega)]
    refine .modQ' ⟨⟨hs.base.nat, hs.base.act, hs.base.val, hs.base.nOut, hs.base.freed, hs.base.built, hs.base.reuse,
      hs.base.needs⟩, hs.qin, hs.pos, hs.len, hs.dst, ?_⟩
    intro hP k' o' d p hko ho' ha' hd' hp
    show (if _ then _ else _) = _
    by_cases hnew : k' = k ∧ o' = o
    · obtain ⟨rfl, rfl⟩ := hnew
      have hx : qfPos op k' o' d + p - qfPos op k' o' 0 = d * (op.ne * op.Q) + p := by
        unfold qfPos
        rw [show (k' * op.host.cOut + (offset op.host.out o' + d)) * (op.ne * op.Q) =
          (k' * op.host.cOut + (offset op.host.out o' + 0)) * (op.ne * op.Q) + d * (op.ne * op.Q) by ring]
        omega
      have hle : qfPos op k' o' 0 ≤ qfPos op k' o' d := by
        unfold qfPos
        exact Nat.mul_le_mul_right _ (by omega)
      have hlt : d * (op.ne * op.Q) + p < op.ne * op.Q * (op.out o').size := by
        have : (d + 1) * (op.ne * op.Q) ≤ (op.out o').size * (op.ne * op.Q) := Nat.mul_le_mul_right _ hd'
        rw [Nat.succ_mul, mul_comm (op.out o').size] at this
        omega
      rw [if_pos ⟨by omega, by omega⟩, hx, (divQ hp).1, (divQ hp).2]
      exact hy hP p hp o' d
    · rw [if_neg]
      · refine hs.done hP k' o' d p ?_ ho' ha' hd' hp
        rcases hko with h1 | ⟨h1, h2⟩
        · exact .inl h1
        · refine .inr ⟨h1, ?_⟩
          rcases Nat.lt_succ_iff_lt_or_eq.1 h2 with h3 | h3
          · exact h3
          · exact absurd ⟨h1, h3⟩ hnew
      · have hlt : k' * op.host.cOut + (offset op.host.out o' + d) + 1 ≤ k * op.host.cOut + (offset op.host.out o + 0) := by
          have hd'' : d < (op.host.out o').size := hd'
          rcases hko with h1 | ⟨rfl, h2⟩
          · have h3 : offset op.host.out o' + d < op.host.cOut := offset_add_lt op.host.out ho' ha' hd''
            have h4 : (k' + 1) * op.host.cOut ≤ k * op.host.cOut := Nat.mul_le_mul_right _ h1
            rw [Nat.succ_mul] at h4
            omega
          · have h2' : o' < o := by
              rcases Nat.lt_succ_iff_lt_or_eq.1 h2 with h3 | h3
              · exact h3
              · exact absurd ⟨rfl, h3⟩ hnew
            have := offset_add_lt op.host.out h2' ha' hd''
            omega
        have := Nat.mul_le_mul_right (op.ne * op.Q) hlt
        rw [Nat.succ_mul] at this
        unfold qfPos
        omega
  · rw [hd o fun hh => ha hh.2]
    have hb := hs.base.nat.qout o
    have harr : s.st.arr (s.st.qOut o) = (s.st.qOut o).buf := by unfold GSt.arr; rw [hb]
    refine Tr.mono (Tr.liftQ' (Q := fun t _ => ∃ b, b.len = (s.st.qOut o).buf.len ∧ t = { s.st with
      qOut := Function.update s.st.qOut o ⟨true, none, b⟩ }) ?_) ?_
    · refine .bind (.get ?_)
      rw [if_neg (by rw [harr, hs.base.nat.fix.qOutLen]; omega), hb]
      exact .mod ⟨_, by unfold writeQuads; rfl, rfl⟩
    · rintro s' _ ⟨e1, b, hb', e2⟩
      have hn := hs.base.nat
      have hqo : ∀ o', (s'.st.qOut o').buf.len = (s.st.qOut o').buf.len ∧ (s'.st.qOut o').bor = none := by
        intro o'
        rw [e2]
        by_cases hoo : o' = o
        · subst hoo
          show (Function.update s.st.qOut o' _ o').buf.len = _ ∧ (Function.update s.st.qOut o' _ o').bor = _
          rw [Function.update_self]; exact ⟨hb', rfl⟩
        · show (Function.update s.st.qOut o _ o').buf.len = _ ∧ (Function.update s.st.qOut o _ o').bor = _
          rw [Function.update_of_ne hoo]; exact ⟨rfl, hn.qout o'⟩
      have hq : s'.st.qIn = s.st.qIn := by rw [e2]
      refine ⟨⟨?_, by rw [e1]; exact hs.base.act, by rw [hq, show s'.freed = s.freed by rw [e1]]; exact hs.base.val,
        by rw [e1]; exact hs.base.nOut, by rw [e1]; exact hs.base.freed, by rw [e1]; exact hs.base.built,
        by rw [e1]; exact hs.base.reuse, by rw [e1]; exact hs.base.needs⟩, hq.trans hs.qin, by rw [e1]; exact hs.pos,
        by rw [e1]; exact hs.len, by rw [e1]; exact hs.dst, ?_⟩
      · have ev : s'.st.ev = s.st.ev := by rw [e2]
        have vv : s'.st.vecs = s.st.vecs := by rw [e2]
        refine ⟨⟨by rw [e2]; exact hn.fix.tabs, by rw [ev]; exact hn.fix.evIn, by rw [ev]; exact hn.fix.evOut,
          by rw [hq]; exact hn.fix.qInLen, fun o' => by rw [(hqo o').1]; exact hn.fix.qOutLen o', by rw [hq]; exact hn.fix.wts,
          hn.fix.cachedOf (by rw [e2]) vv fun f => by rw [ev]; exact ⟨rfl, rfl⟩⟩, by rw [vv]; exact hn.vecs,
          by rw [e2]; exact hn.dn, by rw [ev]; exact hn.wr, by rw [ev]; exact hn.rd, fun o' => (hqo o').2, by rw [hq]; exact hn.borS,
          by rw [hq]; exact hn.borN, fun j h1 h2 => ?_, fun j h1 h2 h3 => ?_, fun _ _ => rfl⟩
        · exact goodIn_congr (s := s.st) (by rw [hq]) vv (fun k _ => by rw [ev]) (hn.vals j h1 h2)
        · exact hasGather_congr (s := s.st) vv (fun k _ => by rw [ev]; exact ⟨rfl, rfl⟩) (hn.gath j h1 h2 h3)
      · have harr' : s'.arr = s.arr := by rw [e1]
        rw [harr']
        intro hP k' o' d p hko ho' ha' hd' hp
        refine hs.done hP k' o' d p ?_ ho' ha' hd' hp
        rcases hko with h1 | ⟨h1, h2⟩
        · exact .inl h1
        · refine .inr ⟨h1, ?_⟩
          rcases Nat.lt_succ_iff_lt_or_eq.1 h2 with h3 | h3
          · exact h3
          · subst h3; exact absurd ha' ha

/-- Outputs point into the assembled array. -/
theorem point_outs {s : QSt α} {k : Nat} (hp : s.pos = k * op.host.cOut * (op.ne * op.Q))
    (hd : ∀ o, ¬ (o < op.nout ∧ (op.out o).vec = .active) → s.dst o = none) :
    Tr (M.loop op.nout (pointOut op)) s fun s' _ => s' = { s with pos := s'.pos, dst := s'.dst } ∧
      s'.pos = (k + 1) * op.host.cOut * (op.ne * op.Q) ∧ (∀ o, ¬ (o < op.nout ∧ (op.out o).vec = .active) → s'.dst o = none) ∧
      ∀ o < op.nout, (op.out o).vec = .active → s'.dst o = some (qfPos op k o 0) := by
  refine Tr.mono (Tr.loop (fun o s' => s' = { s with pos := s'.pos, dst := s'.dst } ∧
      s'.pos = (k * op.host.cOut + offset op.host.out o) * (op.ne * op.Q) ∧ (∀ o, ¬ (o < op.nout ∧ (op.out o).vec = .active) → s'.dst o = none) ∧
      ∀ o' < o, (op.out o').vec = .active → s'.dst o' = some (qfPos op k o' 0)) ⟨rfl, ?_, hd, fun o ho => absurd ho (by omega)⟩ ?_) ?_
  · rw [hp]; simp [offset]
  · rintro o ho s1 ⟨e1, e2, e3, e4⟩
    have h1 := offset_succ op.host.out o
    have h2 : (op.host.out o).vec = (op.out o).vec := rfl
    have h3 : (op.host.out o).size = (op.out o).size := rfl
    rw [h2, h3] at h1
    unfold pointOut
    by_cases ha : (op.out o).vec = .active
    · rw [if_pos ha]
      rw [if_pos ha] at h1
      refine .modQ' ⟨?_, ?_, fun o' ha' => ?_, fun o' ho' ha' => ?_⟩
      · rw [e1]
      · show s1.pos + _ = _
        rw [e2, h1]; ring
      · show Function.update s1.dst o _ o' = _
        rw [Function.update_of_ne (by rintro rfl; exact ha' ⟨ho, ha⟩)]; exact e3 o' ha'
      · show Function.update s1.dst o _ o' = _
        by_cases hoo : o' = o
        · subst hoo
          rw [Function.update_self, e2]
          unfold qfPos
          rw [Nat.add_zero]
        · rw [Function.update_of_ne hoo]; exact e4 o' (by omega) ha'
    · rw [if_neg ha]
      rw [if_neg ha] at h1
      refine .pure ⟨e1, by rw [e2, h1, Nat.add_zero], e3, fun o' ho' ha' => ?_⟩
      refine e4 o' ?_ ha'
      rcases Nat.lt_succ_iff_lt_or_eq.1 ho' with h4 | rfl
      · exact h4
      · exact absurd ha' ha
  · rintro s' _ ⟨e1, e2, e3, e4⟩
    refine ⟨e1, ?_, e3, e4⟩
    rw [e2]
    show (k * op.host.cOut + op.host.cOut) * _ = _
    ring

theorem Base.of_eq {s0 s s' : QSt α} (hs : Base op S V s0 s) (e1 : s'.st = s.st) (e2 : s'.act = s.act) (e3 : s'.nOut = s.nOut)
    (e4 : s'.freed = s.freed) (e5 : s'.built = s.built) (e6 : s'.reuse = s.reuse) (e7 : s'.needs = s.needs) :
    Base op S V s0 s' :=
  ⟨by rw [e1]; exact hs.nat, by rw [e2]; exact hs.act, by rw [e1, e4]; exact hs.val, by rw [e3]; exact hs.nOut,
    by rw [e4]; exact hs.freed, by rw [e5]; exact hs.built, by rw [e6]; exact hs.reuse, by rw [e7]; exact hs.needs⟩

theorem comp_of_qIn {s s' : QSt α} (e : s'.st.qIn = s.st.qIn) {j : Nat} {y : α} (h : Comp op s j y) : Comp op s' j y := by
  intro i hi ha c hc hj p hp
  rw [e]
  exact h i hi ha c hc hj p hp

/-- Component `k` is set, its predecessor cleared. -/
theorem set_clear (h : GOK dv op S) {P : Prop} {s0 s : QSt α} {k : Nat} (hk : k < op.host.cIn) (hs : ColSt op S V P s0 k s) :
    TB (Dangling op s0) (do setAct op k 1; clearAct op op.host.cIn k) s fun s' _ => Base op S V s0 s' ∧
      s' = { s with st := s'.st } ∧ InCols op P (k + 1) s' := by
  refine .bind (TB.mono (setAct_ok h hs.base hk 1) ?_)
  rintro s1 _ ⟨b1, e1, c1, f1, -⟩
  have hprev : ∀ j < op.host.cIn, j ≠ k → (0 < k ∧ (j < k ∨ j = op.host.cIn - 1)) ∨ (P ∧ j ≠ 0 ∧ j ≠ op.host.cIn - 1) →
      Comp op s1 j (if 0 < k ∧ j = k - 1 then 1 else 0) := fun j hj hjk hh => f1 j hjk _ (hs.ins j hj hh)
  unfold clearAct
  by_cases hn : 1 < op.host.cIn
  · rw [if_pos hn]
    set m := (k + op.host.cIn - 1) % op.host.cIn with hm
    have hmlt : m < op.host.cIn := Nat.mod_lt _ (by omega)
    have hmv : (0 < k ∧ m = k - 1) ∨ (k = 0 ∧ m = op.host.cIn - 1) := by
      rcases Nat.eq_zero_or_pos k with h0 | h0
      · right
        refine ⟨h0, ?_⟩
        rw [hm, h0, Nat.zero_add, Nat.mod_eq_of_lt (by omega)]
      · left
        refine ⟨h0, ?_⟩
        rw [hm, show k + op.host.cIn - 1 = (k - 1) + op.host.cIn by omega, Nat.add_mod_right, Nat.mod_eq_of_lt (by omega)]
    refine TB.mono (setAct_ok h b1 hmlt 0) ?_
    rintro s2 _ ⟨b2, e2, c2, f2, -⟩
    refine ⟨b2, by rw [e2, e1], fun j hj hh => ?_⟩
    by_cases hjk : j = k
    · subst hjk
      rw [if_pos ⟨by omega, by omega⟩]
      exact f2 j (by omega) 1 c1
    rw [if_neg (by omega)]
    by_cases hjm : j = m
    · rw [hjm]; exact c2
    refine f2 j hjm 0 ?_
    have := hprev j hj hjk (by
      rcases hh with ⟨-, h1 | h1⟩ | h1
      · left; omega
      · left; omega
      · exact .inr h1)
    rwa [if_neg (by omega)] at this
  · rw [if_neg hn]
    refine .inr (.pure ⟨b1, e1, fun j hj hh => ?_⟩)
    obtain rfl : j = k := by omega
    rw [if_pos ⟨by omega, by omega⟩]
    exact c1

theorem column_ok (h : GOK dv op S) (hne : 0 < op.ne) {P : Prop} {s0 s : QSt α} {k : Nat} (hk : k < op.host.cIn)
    (hs : ColSt op S V P s0 k s) :
    TB (Dangling op s0) (columnG op op.host.cIn k) s fun s' _ => ColSt op S V P s0 (k + 1) s' := by
  have hsc := set_clear h hk hs
  have heq : columnG op op.host.cIn k = ((do setAct op k 1; clearAct op op.host.cIn k) >>= fun _ => do
      M.loop op.nout (pointOut op)
      qfApplyTo op : M (QSt α) Unit) := by
    unfold columnG
    funext s
    simp only [M.bind_apply]
    cases setAct op k 1 s <;> rfl
  rw [heq]
  refine .bind (TB.mono hsc ?_)
  rintro s1 _ ⟨b1, e1, c1⟩
  refine .bind (Tr.tb (Tr.mono (point_outs (op := op) (s := s1) (k := k) (by rw [e1]; exact hs.pos) (by rw [e1]; exact hs.dst)) ?_))
  rintro s2 _ ⟨e2, p2, d2, a2⟩
  have b2 : Base op S V s0 s2 := b1.of_eq (by rw [e2]) (by rw [e2]) (by rw [e2]) (by rw [e2]) (by rw [e2]) (by rw [e2]) (by rw [e2])
  have hq2 : s2.st.qIn = s1.st.qIn := by rw [e2]
  have harr : s2.arr = s.arr := by rw [e2, e1]
  unfold qfApplyTo
  refine .bind (TB.mono (readAll_ok h b2) ?_)
  rintro s3 _ rfl
  refine .inr (.bind (.getQ' (.bind (.check (Nat.mul_pos hne h.pts) ?_))))
  have hL : s3.st.L = fun v => (V v).buf.val := by
    unfold GSt.L
    rw [b2.nat.vecs]
  have hy : P → ∀ p < op.ne * op.Q, ∀ o d, op.g (readQuads op s3.st p) o d =
      op.g (seen op S (fun v => (V v).buf.val) k p) o d := by
    intro hP p hp o d
    rw [readQuads_seen (k := k) h b2 ?_ hp, hL]
    intro j
    by_cases hj : j < op.host.cIn
    · have := c1 j hj (by
        by_cases h0 : j = 0
        · exact .inl ⟨by omega, .inl (by omega)⟩
        · by_cases h1 : j = op.host.cIn - 1
          · exact .inl ⟨by omega, .inr h1⟩
          · exact .inr ⟨hP, h0, h1⟩)
      have h2 := comp_of_qIn hq2 this
      have h3 : (0 < k + 1 ∧ j = k + 1 - 1) ↔ j = k := ⟨fun h => by omega, fun h => by omega⟩
      simpa only [h3] using h2
    · intro i hi ha c hc hij
      exact absurd (hij ▸ offset_add_lt op.host.inp hi ha hc) hj
  refine Tr.mono (Tr.loop (fun o s' => QOutSt op S V P s0 s3 k o s')
    ⟨b2, rfl, rfl, by rw [harr]; exact hs.len, rfl, by rw [harr]; exact hs.done⟩
    fun o ho s' hs' => write_out h hk ho d2 a2 (fun hP p hp o d => hy hP p hp o d) hs') ?_
  intro s4 _ h4
  refine ⟨h4.base, h4.pos.trans p2, h4.len, by rw [h4.dst]; exact d2, fun _ o ho ha => by rw [h4.dst, a2 o ho ha]; rfl,
    fun j hj hh => comp_of_qIn (h4.qin.trans hq2) (c1 j hj hh), ?_⟩
  intro hP k' o' d p hko ho' ha' hd' hp
  refine h4.done hP k' o' d p ?_ ho' ha' hd' hp
  omega

end Verif.Gpu
