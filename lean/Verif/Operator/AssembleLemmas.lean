import Verif.Operator.AssembleIn

/-!
# Assembly of the QFunction (helper lemmas)
-/

set_option linter.unusedSectionVars false

namespace Verif
namespace Operator

open Finset
open Restriction (RData Made Rstr)
open Basis (Bas EMode)

variable {α : Type} [CommRing α]

/-! ## Sizes -/

theorem countSizes_eq (f : Nat → OField α) (n : Nat) : countSizes f n = offset f n := by
  induction n with
  | zero => rfl
  | succ n ih =>
    unfold offset at ih ⊢
    rw [sum_range_succ, ← ih, countSizes]
    split <;> simp

theorem offset_succ (f : Nat → OField α) (n : Nat) :
    offset f (n + 1) = offset f n + if (f n).vec = .active then (f n).size else 0 := by
  unfold offset
  rw [sum_range_succ]

theorem offset_mono (f : Nat → OField α) {m n : Nat} (h : m ≤ n) : offset f m ≤ offset f n := by
  induction n with
  | zero => rw [Nat.le_zero.1 h]
  | succ n ih =>
    rcases Nat.lt_or_ge m (n + 1) with h1 | h1
    · rw [offset_succ]; have := ih (by omega); omega
    · rw [show m = n + 1 by omega]

/-- Components of different active fields have different numbers. -/
theorem offset_add_lt (f : Nat → OField α) {i n c : Nat} (hi : i < n) (ha : (f i).vec = .active) (hc : c < (f i).size) :
    offset f i + c < offset f n := by
  have h1 := offset_succ f i
  rw [if_pos ha] at h1
  have h2 := offset_mono f (m := i + 1) (n := n) hi
  omega

/-! ## Lifting -/

theorem liftS_ok {β : Type} {m : M (St α) β} {s : ASt α} {t : St α} {b : β} (h : m s.st = .ok t b) :
    liftS m s = .ok { s with st := t } b := by
  unfold liftS; rw [h]

theorem liftS_eq_ok {β : Type} {m : M (St α) β} {s s' : ASt α} {b : β} (h : liftS m s = .ok s' b) :
    ∃ t, m s.st = .ok t b ∧ s' = { s with st := t } := by
  unfold liftS at h
  split at h
  · cases h; exact ⟨_, by assumption, rfl⟩
  · cases h
  · cases h

theorem liftS_eq_err {β : Type} {m : M (St α) β} {s s' : ASt α} {c : Err} (h : liftS m s = .err s' c) :
    ∃ t, m s.st = .err t c ∧ s' = { s with st := t } := by
  unfold liftS at h
  split at h
  · cases h
  · cases h; exact ⟨_, by assumption, rfl⟩
  · cases h

theorem liftS_wp {β : Type} {R : Prop} {m : M (St α) β} {s : ASt α} {Q : ASt α → β → Prop} {E : ASt α → Err → Prop}
    (h : M.wp R m s.st (fun t b => Q { s with st := t } b) (fun t c => E { s with st := t } c)) :
    M.wp R (liftS m) s Q E := by
  unfold M.wp at h ⊢
  unfold liftS
  cases e : m s.st <;> rw [e] at h <;> exact h

/-! ## Passive inputs on one element -/

/-- What holds of the passive inputs when the elements are visited. -/
structure PassPre (op : Oper α) (S : Meaning α) (L : Nat → Nat → α) (s : St α) : Prop where
  it : InSpec op S s.impl.it
  len : ∀ i < op.nin, Live op i → (s.impl.eIn (first op i)).len = eSizeOf op (op.inp i)
  gath : ∀ i < op.nin, Live op i →
    Gath op (S.dat (op.inp i)) (s.impl.eIn (first op i)) (cont L ((op.inp i).vec.ptr .null))

/-- The passive inputs have their values. -/
def PassVal (op : Oper α) (S : Meaning α) (L : Nat → Nat → α) (e : Nat) (q : Nat → Buf α) : Prop :=
  ∀ i < op.nin, (op.inp i).vec ≠ .active → ∀ x < op.Q * (op.inp i).size, (q i).val x = S.inVal op L .null e i x

theorem passiveBasis_ok {op : Oper α} {S : Meaning α} (h : OpOK op S) {L : Nat → Nat → α} {s : St α}
    (hp : PassPre op S L s) (junk : Nat → Nat → α) (w : Nat → Buf α) {e : Nat} (he : e < op.ne) {q : Nat → Buf α}
    (hq : QOK op S q) :
    ∃ q' : Nat → Buf α, inputBasis op junk true e (s.put q w) = .ok (s.put q' w) () ∧ QOK op S q' ∧ PassVal op S L e q' ∧
      ∀ i, (op.inp i).vec = .active → q' i = q i := by
  unfold inputBasis
  obtain ⟨q', e1, h1, h2, h3⟩ := loop_ok (n := op.nin) (body := inputBasis1 op junk true e) (fun q => s.put q w)
    (fun j q' => QOK op S q' ∧ (∀ i < j, (op.inp i).vec ≠ .active → ∀ x < op.Q * (op.inp i).size,
        (q' i).val x = S.inVal op L .null e i x) ∧ ∀ i, (op.inp i).vec = .active → q' i = q i)
    (a := q) ⟨hq, fun i hi => absurd hi (by omega), fun _ _ => rfl⟩
    (by
      rintro i hi q' ⟨hq, hv, ha⟩
      by_cases hact : (op.inp i).vec = .active
      · refine ⟨q', ?_, hq, ?_, ha⟩
        · unfold inputBasis1
          rw [if_pos ⟨hact, rfl⟩]; rfl
        · intro j hj hn
          have : j ≠ i := by rintro rfl; exact hn hact
          exact hv j (by omega) hn
      · obtain ⟨b, e1, e2, e3⟩ := inputBasis1_at h hp.it hi (fun hw => hp.len i hi ⟨hw, hact⟩)
          (fun hw => hp.gath i hi ⟨hw, hact⟩) (sk := true) (fun hh => hact hh.1) junk w he hq
        refine ⟨_, e1, ?_, ?_, ?_⟩
        · intro j hj
          by_cases hji : j = i
          · subst hji
            rw [Function.update_self]
            refine ⟨e2, fun hw x hx => ?_⟩
            have hsz := (h.in_weight hj hw).2.2.1
            rw [e3 x (by rw [hsz]; omega)]
            unfold Meaning.inVal
            simp only [hw]
          · rw [Function.update_of_ne hji]; exact hq j hj
        · intro j hj hn x hx
          by_cases hji : j = i
          · subst hji
            rw [Function.update_self]
            exact e3 x hx
          · rw [Function.update_of_ne hji]; exact hv j (by omega) hn x hx
        · intro j hj
          have hji : j ≠ i := by rintro rfl; exact hact hj
          rw [Function.update_of_ne hji]; exact ha j hj)
  exact ⟨q', e1, h1, h2, h3⟩

/-! ## Unit inputs -/

/-- `b` with the `n` entries from `o` on replaced by `x`. -/
def Buf.row (b : Buf α) (o n : Nat) (x : α) : Buf α := ⟨b.len, fun y => if o ≤ y ∧ y < o + n then x else b.val y⟩

theorem row_ok (b : Buf α) (o n : Nat) (x : α) (h : o + n ≤ b.len) :
    loop n (fun j b => b.wr (o + j) x) b = .ok (Buf.row b o n x) := by
  obtain ⟨b', e, h1, h2⟩ := loop_inv (n := n) (body := fun j (b : Buf α) => b.wr (o + j) x) (s := b)
    (fun j b' => b'.len = b.len ∧ ∀ y, b'.val y = if o ≤ y ∧ y < o + j then x else b.val y)
    ⟨rfl, fun y => by rw [if_neg (by omega)]⟩
    (by
      rintro j hj b' ⟨h1, h2⟩
      refine ⟨_, Buf.wr_lt (show o + j < b'.len by omega) x, h1, fun y => ?_⟩
      show (if y = o + j then x else b'.val y) = _
      by_cases hy : y = o + j
      · subst hy; rw [if_pos rfl, if_pos (by omega)]
      · rw [if_neg hy, h2]
        by_cases hc : o ≤ y ∧ y < o + j
        · rw [if_pos hc, if_pos (by omega)]
        · rw [if_neg hc, if_neg (by omega)])
  rw [e]
  congr 1
  unfold Buf.row
  cases b'; cases h1
  congr 1
  funext y; exact h2 y

theorem setRow_ok {op : Oper α} {s : St α} {q w : Nat → Buf α} {i c : Nat} (x : α)
    (hq : (q i).len = op.Q * (op.inp i).size) (hc : c < (op.inp i).size) :
    setRow op i c x (s.put q w) = .ok (s.put (Function.update q i (Buf.row (q i) (c * op.Q) op.Q x)) w) () := by
  have hb : c * op.Q + op.Q ≤ (q i).len := by
    rw [hq, Nat.mul_comm op.Q]; exact slot_le hc
  unfold setRow
  simp only [M.bind_apply, getS, Out.bind_ok, St.put, row_ok _ _ _ _ hb, M.lift_ok, setQ, modI]

/-- All data of active inputs are zero. -/
def ActZero (op : Oper α) (q : Nat → Buf α) : Prop :=
  ∀ i < op.nin, (op.inp i).vec = .active → ∀ x < op.Q * (op.inp i).size, (q i).val x = 0

theorem div_eq_iff_slot {Q x c : Nat} (hQ : 0 < Q) : x / Q = c ↔ c * Q ≤ x ∧ x < c * Q + Q := by
  rw [Nat.div_eq_iff hQ]
  omega

/-- With a single component of active inputs there is a single active input, of size one. -/
theorem single {op : Oper α} (h1 : op.cIn = 1) {i j : Nat} (hi : i < op.nin) (hj : j < op.nin)
    (hai : (op.inp i).vec = .active) (haj : (op.inp j).vec = .active) {c d : Nat} (hc : c < (op.inp i).size)
    (hd : d < (op.inp j).size) : j = i ∧ d = c := by
  have a1 := offset_add_lt op.inp hi hai hc
  have a2 := offset_add_lt op.inp hj haj hd
  have e1 : offset op.inp op.nin = 1 := h1
  rcases Nat.lt_trichotomy i j with h | h | h
  · have := offset_add_lt op.inp h hai hc; omega
  · subst h; exact ⟨rfl, by omega⟩
  · have := offset_add_lt op.inp h haj hd; omega

/-- The arrays given to the QFunction when component `c` of input `i` is set to one. -/
theorem clip_unit {op : Oper α} {S : Meaning α} {L : Nat → Nat → α} {e : Nat} {q : Nat → Buf α}
    (hv : PassVal op S L e q) {i c : Nat} (hi : i < op.nin) (ha : (op.inp i).vec = .active) (hc : c < (op.inp i).size)
    (hz : ActZero op q ∨ op.cIn = 1) :
    clip op (Function.update q i (Buf.row (q i) (c * op.Q) op.Q 1)) = S.mix op L e (unit op i c) := by
  funext j x
  unfold clip Meaning.mix
  split
  swap
  · rfl
  rename_i hh
  obtain ⟨hj, hx⟩ := hh
  have hQ : 0 < op.Q := Nat.pos_of_ne_zero (by rintro h0; rw [h0] at hx; simp at hx)
  have hxs : x / op.Q < (op.inp j).size := Nat.div_lt_of_lt_mul hx
  by_cases haj : (op.inp j).vec = .active
  · rw [if_pos haj]
    unfold unit
    by_cases hji : j = i
    · subst hji
      rw [Function.update_self]
      show (if c * op.Q ≤ x ∧ x < c * op.Q + op.Q then (1 : α) else (q j).val x) = _
      by_cases hxc : x / op.Q = c
      · rw [if_pos ((div_eq_iff_slot hQ).1 hxc), if_pos ⟨rfl, hxc⟩]
      · rw [if_neg (fun hh => hxc ((div_eq_iff_slot hQ).2 hh)), if_neg (fun hh => hxc hh.2)]
        rcases hz with hz | hz
        · exact hz j hj haj x hx
        · exact absurd (single hz hj hj haj haj hc hxs).2 hxc
    · rw [Function.update_of_ne hji, if_neg (fun hh => hji hh.1)]
      rcases hz with hz | hz
      · exact hz j hj haj x hx
      · exact absurd (single hz hi hj ha haj hc hxs).1 hji
  · have hji : j ≠ i := by rintro rfl; exact haj ha
    rw [if_neg haj, Function.update_of_ne hji]
    exact hv j hj haj x hx

/-! ## Storing -/

theorem putArr_ok {s : ASt α} {n : Nat} (y : Nat → α) (h : s.off + n ≤ s.arr.len) :
    putArr n y s = .ok { s with arr := paste s.arr s.off ⟨n, y⟩, off := s.off + n } () := by
  unfold putArr
  simp only [M.bind_apply, getA, Out.bind_ok, slice, if_pos h, M.lift_ok, modA]

/-- The state with quadrature data `x.1`, assembled array `x.2.1` and pointer `x.2.2`. -/
def ASt.put (s : ASt α) (w : Nat → Buf α) (x : (Nat → Buf α) × Buf α × Nat) : ASt α :=
  { s with st := s.st.put x.1 w, arr := x.2.1, off := x.2.2 }

/-- Values of the active outputs, stored from position `b` on. -/
def Stored (op : Oper α) (arr : Buf α) (b : Nat) (n : Nat) (y : Nat → Nat → α) : Prop :=
  ∀ o < n, (op.out o).vec = .active → ∀ d < (op.out o).size, ∀ q < op.Q,
    arr.val (b + (offset op.out o + d) * op.Q + q) = y o (d * op.Q + q)

theorem enc3_lt {a b n Q q : Nat} (h : a + b < n) (hq : q < Q) : (a + b) * Q + q < n * Q := by
  have : (a + b + 1) * Q ≤ n * Q := Nat.mul_le_mul_right _ h
  rw [Nat.add_mul, Nat.one_mul] at this
  omega

theorem Stored.congr {op : Oper α} {arr arr' : Buf α} {b n : Nat} {y : Nat → Nat → α} (h : Stored op arr b n y)
    {m : Nat} (hm : b + offset op.out n * op.Q ≤ m) (he : ∀ x < m, arr'.val x = arr.val x) : Stored op arr' b n y := by
  intro o ho ha d hd q hq
  rw [he _ ?_]
  · exact h o ho ha d hd q hq
  · have := enc3_lt (offset_add_lt op.out ho ha hd) hq
    omega

theorem paste_below (b : Buf α) (off : Nat) (s : Buf α) {x : Nat} (h : x < off) : (paste b off s).val x = b.val x := by
  show (if off ≤ x ∧ _ then _ else _) = _
  rw [if_neg (by omega)]

theorem paste_at (b : Buf α) (off n : Nat) (y : Nat → α) {x : Nat} (h : x < n) : (paste b off ⟨n, y⟩).val (off + x) = y x := by
  show (if off ≤ off + x ∧ off + x < off + n then y (off + x - off) else _) = _
  rw [if_pos (by omega), Nat.add_sub_cancel_left]

theorem emit_ok {op : Oper α} {S : Meaning α} (h : OpOK op S) (hpos : 0 < op.cOut) (s : ASt α) (w : Nat → Buf α)
    (q : Nat → Buf α) (arr : Buf α) (off : Nat) (y : Nat → Nat → α) (hl : off + op.cOut * op.Q ≤ arr.len) :
    ∃ arr', emit op y (s.put w (q, arr, off)) = .ok (s.put w (q, arr', off + op.cOut * op.Q)) () ∧
      arr'.len = arr.len ∧ (∀ x < off, arr'.val x = arr.val x) ∧ Stored op arr' off op.nout y := by
  unfold emit
  by_cases hid : op.isId = true
  · rw [if_pos hid]
    obtain ⟨_, hn, _, _⟩ := h.ident hid
    have hco : op.cOut = offset op.out 1 := by unfold Oper.cOut; rw [hn]
    have hact : (op.out 0).vec = .active := by
      by_contra hna
      rw [hco, offset_succ, if_neg hna] at hpos
      simp [offset] at hpos
    have hsz : op.cOut = (op.out 0).size := by rw [hco, offset_succ, if_pos hact]; simp [offset]
    rw [hsz] at hl ⊢
    refine ⟨paste arr off ⟨(op.out 0).size * op.Q, y 0⟩, putArr_ok (s := s.put w (q, arr, off)) (y 0) hl, rfl,
      fun x hx => paste_below _ _ _ hx, ?_⟩
    rw [hn]
    intro o ho _ d hd p hp
    have ho0 : o = 0 := by omega
    subst ho0
    have hlt : d * op.Q + p < (op.out 0).size * op.Q := by
      have := enc3_lt (a := d) (b := 0) (n := (op.out 0).size) (by omega) hp
      simpa using this
    rw [show off + (offset op.out 0 + d) * op.Q + p = off + (d * op.Q + p) by simp [offset]; ring]
    exact paste_at _ _ _ _ hlt
  · rw [if_neg hid]
    obtain ⟨⟨arr', off'⟩, e1, h1, h2, h3, h4⟩ := loop_ok (n := op.nout) (body := emit1 op y)
      (fun x : Buf α × Nat => s.put w (q, x.1, x.2))
      (fun j x => x.1.len = arr.len ∧ x.2 = off + offset op.out j * op.Q ∧ (∀ z < off, x.1.val z = arr.val z) ∧
        Stored op x.1 off j y) (a := (arr, off)) ⟨rfl, by simp [offset], fun _ _ => rfl, fun o ho => absurd ho (by omega)⟩
      (by
        rintro o ho ⟨a, p⟩ ⟨h1, h2, h3, h4⟩
        simp only at h1 h2 h3 h4
        unfold emit1
        by_cases ha : (op.out o).vec = .active
        · rw [if_pos ha]
          have hsucc := offset_succ op.out o
          rw [if_pos ha] at hsucc
          have hle : (offset op.out o + (op.out o).size) * op.Q ≤ op.cOut * op.Q := by
            rw [← hsucc]; exact Nat.mul_le_mul_right _ (offset_mono _ ho)
          rw [Nat.add_mul] at hle
          refine ⟨(paste a p ⟨(op.out o).size * op.Q, y o⟩, p + (op.out o).size * op.Q),
            putArr_ok (s := s.put w (q, a, p)) (y o) (by show p + _ ≤ a.len; omega), h1, ?_, ?_, ?_⟩
          · show p + _ = _
            rw [hsucc, Nat.add_mul]; omega
          · intro z hz
            show (paste a p _).val z = _
            rw [paste_below _ _ _ (by omega), h3 z hz]
          · intro o' ho' ha' d hd r hr
            by_cases hoo : o' = o
            · subst hoo
              have hlt : d * op.Q + r < (op.out o').size * op.Q := by
                have := enc3_lt (a := d) (b := 0) (n := (op.out o').size) (by omega) hr
                simpa using this
              have := paste_at a p ((op.out o').size * op.Q) (y o') hlt
              rw [← this]
              congr 1
              rw [h2, Nat.add_mul]; omega
            · exact h4.congr (m := p) (by omega) (fun x hx => paste_below _ _ _ hx) o' (by omega) ha' d hd r hr
        · rw [if_neg ha]
          refine ⟨(a, p), rfl, h1, ?_, h3, ?_⟩
          · rw [offset_succ, if_neg ha]; exact h2
          · intro o' ho' ha'
            have : o' ≠ o := by rintro rfl; exact ha ha'
            exact h4 o' (by omega) ha')
    exact ⟨arr', by rw [e1, h2]; rfl, h1, h3, h4⟩

theorem evalQF_clip {op : Oper α} {S : Meaning α} (h : OpOK op S) (q : Nat → Buf α) {o x : Nat} (ho : o < op.nout)
    (hx : x < op.Q * (op.out o).size) : evalQF op q o x = op.eval (clip op q) o x := by
  unfold evalQF Oper.eval
  by_cases hid : op.isId = true
  · rw [if_pos hid, if_pos hid]
    obtain ⟨h1, h2, h3, _⟩ := h.ident hid
    have ho0 : o = 0 := by omega
    subst ho0
    unfold clip
    rw [if_pos ⟨by omega, by rw [← h3]; exact hx⟩]
  · rw [if_neg hid, if_neg hid]

/-! ## Columns -/

/-- The data of the active inputs do not disturb the columns: they are zero, or there is a single component. -/
def Clean (op : Oper α) (q : Nat → Buf α) : Prop := ActZero op q ∨ op.cIn = 1

/-- What holds of the quadrature data during the assembly of element `e`. -/
structure ColInv (op : Oper α) (S : Meaning α) (L : Nat → Nat → α) (e : Nat) (z : Prop) (q : Nat → Buf α) : Prop where
  qok : QOK op S q
  pass : PassVal op S L e q
  clean : z → Clean op q

theorem row_len (b : Buf α) (o n : Nat) (x : α) : (Buf.row b o n x).len = b.len := rfl

theorem ColInv.rows {op : Oper α} {S : Meaning α} (h : OpOK op S) {L : Nat → Nat → α} {e : Nat} {z : Prop}
    {q : Nat → Buf α} (hq : ColInv op S L e z q) {i : Nat} (hi : i < op.nin) (ha : (op.inp i).vec = .active) (c : Nat) :
    ColInv op S L e z (Function.update (Function.update q i (Buf.row (q i) (c * op.Q) op.Q 1)) i
      (Buf.row (Buf.row (q i) (c * op.Q) op.Q 1) (c * op.Q) op.Q 0)) := by
  rw [Function.update_idem]
  refine ⟨?_, ?_, ?_⟩
  · intro j hj
    by_cases hji : j = i
    · subst hji
      rw [Function.update_self]
      refine ⟨(hq.qok j hj).1, fun hw => ?_⟩
      have := (h.in_weight hj hw).1
      rw [ha] at this; cases this
    · rw [Function.update_of_ne hji]; exact hq.qok j hj
  · intro j hj hn
    have hji : j ≠ i := by rintro rfl; exact hn ha
    rw [Function.update_of_ne hji]; exact hq.pass j hj hn
  · intro hz
    rcases hq.clean hz with h1 | h1
    · refine Or.inl (fun j hj haj x hx => ?_)
      by_cases hji : j = i
      · subst hji
        rw [Function.update_self]
        show (if c * op.Q ≤ x ∧ x < c * op.Q + op.Q then (0 : α)
          else if c * op.Q ≤ x ∧ x < c * op.Q + op.Q then 1 else (q j).val x) = 0
        split
        · rfl
        · exact h1 j hj haj x hx
      · rw [Function.update_of_ne hji]; exact h1 j hj haj x hx
    · exact Or.inr h1

theorem aliased_false {op : Oper α} (h : Separate op) {i j : Nat} (hi : i < op.nin) (hj : j < op.nin) :
    aliased op i j = false := by
  by_contra hh
  rw [Bool.not_eq_false] at hh
  simp only [aliased, OField.same, Bool.and_eq_true, decide_eq_true_eq] at hh
  obtain ⟨⟨⟨⟨h1, h2, h3⟩, h4⟩, h5⟩, h6⟩ := hh
  exact h i hi j hj h1 h4 (h2 ▸ h4) h5 h6 h3

theorem syncQ_ok {op : Oper α} (h : Separate op) {i : Nat} (hi : i < op.nin) (s : St α) : syncQ op i s = .ok s () := by
  unfold syncQ
  obtain ⟨_, e, _⟩ := loop_ok (n := op.nin) (body := fun j => (do
      let s ← getS
      if aliased op i j then setQ j (s.impl.qIn i) else pure () : M (St α) Unit)) (fun _ : Unit => s) (fun _ _ => True) (a := ()) trivial
    (by
      intro j hj _ _
      refine ⟨(), ?_, trivial⟩
      simp only [M.bind_apply, getS, Out.bind_ok, aliased_false h hi hj]
      rfl)
  exact e

/-- Whatever is shared, the data keep their lengths and only active inputs change; nothing changes if nothing is shared. -/
theorem syncLent_ok {op : Oper α} {S : Meaning α} (h : OpOK op S) {L : Nat → Nat → α} {e : Nat} {i : Nat}
    (hi : i < op.nin) (s : St α) (w : Nat → Buf α) {q : Nat → Buf α} (hq : QOK op S q) (hp : PassVal op S L e q) :
    ∃ q', syncLent op i (s.put q w) = .ok (s.put q' w) () ∧ QOK op S q' ∧ PassVal op S L e q' ∧
      (Separate op → q' = q) := by
  have hsize : ∀ j < op.nin, aliased op i j = true → (op.inp i).size = (op.inp j).size ∧ (op.inp j).vec = .active ∧
      (op.inp j).mode = .none := by
    intro j hj hh
    simp only [aliased, OField.same, Bool.and_eq_true, decide_eq_true_eq] at hh
    obtain ⟨⟨⟨⟨h1, h2, h3⟩, h4⟩, h5⟩, h6⟩ := hh
    have a1 := h.inp i hi
    have a2 := h.inp j hj
    unfold InOK at a1 a2
    rw [h5] at a1
    rw [h6] at a2
    refine ⟨?_, h2 ▸ h4, h6⟩
    rw [a1.2.2, a2.2.2]
    unfold Meaning.dat
    rw [h3]
  unfold syncLent
  simp only [M.bind_apply, getS, Out.bind_ok]
  by_cases hl : lent (s.put q w) i = true
  swap
  · rw [if_neg hl]
    exact ⟨q, rfl, hq, hp, fun _ => rfl⟩
  rw [if_pos hl]
  unfold syncQ
  obtain ⟨q', e1, b1, b2, b3⟩ := loop_ok (n := op.nin) (body := fun j => (do
      let s ← getS
      if aliased op i j then setQ j (s.impl.qIn i) else pure () : M (St α) Unit)) (fun q' => s.put q' w)
    (fun _ q' => QOK op S q' ∧ PassVal op S L e q' ∧ (Separate op → q' = q)) (a := q) ⟨hq, hp, fun _ => rfl⟩
    (by
      rintro j hj q1 ⟨c1, c2, c3⟩
      simp only [M.bind_apply, getS, Out.bind_ok]
      by_cases hal : aliased op i j = true
      swap
      · rw [if_neg hal]
        exact ⟨q1, rfl, c1, c2, c3⟩
      rw [if_pos hal]
      obtain ⟨d1, d2, d3⟩ := hsize j hj hal
      refine ⟨Function.update q1 j (q1 i), rfl, ?_, ?_, ?_⟩
      · intro k hk
        by_cases hkj : k = j
        · subst hkj
          rw [Function.update_self]
          refine ⟨by rw [(c1 i hi).1, d1], fun hw => ?_⟩
          rw [d3] at hw; cases hw
        · rw [Function.update_of_ne hkj]; exact c1 k hk
      · intro k hk hn
        have hkj : k ≠ j := by rintro rfl; exact hn d2
        rw [Function.update_of_ne hkj]; exact c2 k hk hn
      · intro hsep
        rw [aliased_false hsep hi hj] at hal; cases hal)
  exact ⟨q', e1, b1, b2, b3⟩

theorem row_keeps {op : Oper α} {S : Meaning α} (h : OpOK op S) {L : Nat → Nat → α} {e i : Nat} {q : Nat → Buf α}
    (ha : (op.inp i).vec = .active) (hq : QOK op S q) (hp : PassVal op S L e q) (c : Nat) (x : α) :
    QOK op S (Function.update q i (Buf.row (q i) (c * op.Q) op.Q x)) ∧
      PassVal op S L e (Function.update q i (Buf.row (q i) (c * op.Q) op.Q x)) := by
  refine ⟨fun j hj => ?_, fun j hj hn => ?_⟩
  · by_cases hji : j = i
    · subst hji
      rw [Function.update_self]
      refine ⟨(hq j hj).1, fun hw => ?_⟩
      have := (h.in_weight hj hw).1
      rw [ha] at this; cases this
    · rw [Function.update_of_ne hji]; exact hq j hj
  · have hji : j ≠ i := by rintro rfl; exact hn ha
    rw [Function.update_of_ne hji]; exact hp j hj hn

/-- Length of the part of the array for one component of the active inputs. -/
def Oper.stride (op : Oper α) : Nat := op.cOut * op.Q

theorem column_ok {op : Oper α} {S : Meaning α} (h : OpOK op S) (hpos : 0 < op.cOut) {L : Nat → Nat → α} {e : Nat}
    {z : Prop} (hsep : z → Separate op) (s : ASt α) (w : Nat → Buf α) {q : Nat → Buf α} (hq : ColInv op S L e z q)
    {i c : Nat} (hi : i < op.nin) (ha : (op.inp i).vec = .active) (hc : c < (op.inp i).size) {arr : Buf α} {off : Nat}
    (hl : off + op.stride ≤ arr.len) :
    ∃ x : (Nat → Buf α) × Buf α × Nat, column op i c (s.put w (q, arr, off)) = .ok (s.put w x) () ∧
      ColInv op S L e z x.1 ∧ x.2.1.len = arr.len ∧ x.2.2 = off + op.stride ∧ (∀ y < off, x.2.1.val y = arr.val y) ∧
      (z → Stored op x.2.1 off op.nout (op.eval (S.mix op L e (unit op i c)))) := by
  have hlen := (hq.qok i hi).1
  set q1 := Function.update q i (Buf.row (q i) (c * op.Q) op.Q 1) with hq1
  have e1 : liftS (setRow op i c 1) (s.put w (q, arr, off)) = .ok (s.put w (q1, arr, off)) () :=
    liftS_ok (setRow_ok (s := s.st) (w := w) 1 hlen hc)
  obtain ⟨k1, k2⟩ := row_keeps h ha hq.qok hq.pass c (1 : α)
  obtain ⟨q2, y1, a1, a2, a3⟩ := syncLent_ok h hi s.st w k1 k2
  have y1' : liftS (syncLent op i) (s.put w (q1, arr, off)) = .ok (s.put w (q2, arr, off)) () :=
    liftS_ok (s := s.put w (q1, arr, off)) y1
  obtain ⟨arr', e2, h1, h2, h3⟩ := emit_ok h hpos s w q2 arr off (evalQF op q2) hl
  have e3 : liftS (setRow op i c 0) (s.put w (q2, arr', off + op.cOut * op.Q)) = .ok (s.put w
      (Function.update q2 i (Buf.row (q2 i) (c * op.Q) op.Q 0), arr', off + op.cOut * op.Q)) () :=
    liftS_ok (setRow_ok (s := s.st) (w := w) 0 (a1 i hi).1 hc)
  obtain ⟨k3, k4⟩ := row_keeps h ha a1 a2 c (0 : α)
  obtain ⟨q4, y2, b1, b2, b3⟩ := syncLent_ok h hi s.st w k3 k4
  have y2' : liftS (syncLent op i) (s.put w (Function.update q2 i (Buf.row (q2 i) (c * op.Q) op.Q 0), arr',
      off + op.cOut * op.Q)) = .ok (s.put w (q4, arr', off + op.cOut * op.Q)) () :=
    liftS_ok (s := s.put w (Function.update q2 i (Buf.row (q2 i) (c * op.Q) op.Q 0), arr', off + op.cOut * op.Q)) y2
  refine ⟨(q4, arr', off + op.cOut * op.Q), ?_, ⟨b1, b2, fun hz => ?_⟩, h1, rfl, h2, ?_⟩
  · unfold column
    simp only [M.bind_apply, e1, y1', Out.bind_ok, getA]
    rw [show (s.put w (q2, arr, off)).st.impl.qIn = q2 from rfl, e2]
    simp only [Out.bind_ok, e3]
    exact y2'
  · have := hq.rows h hi ha c
    rw [b3 (hsep hz), a3 (hsep hz), Function.update_self]
    exact this.clean hz
  · intro hz o ho hao d hd p hp
    rw [h3 o ho hao d hd p hp]
    have hx : d * op.Q + p < op.Q * (op.out o).size := by
      have := enc3_lt (a := d) (b := 0) (n := (op.out o).size) (by omega) hp
      rw [Nat.mul_comm op.Q]; simpa using this
    rw [a3 (hsep hz), evalQF_clip h q1 ho hx, hq1, clip_unit hq.pass hi ha hc (hq.clean hz)]

/-- Columns of the inputs below `n`, stored from position `b` on. -/
def Cols (op : Oper α) (arr : Buf α) (b n : Nat) (Y : Nat → Nat → Nat → Nat → α) : Prop :=
  ∀ i < n, (op.inp i).vec = .active → ∀ c < (op.inp i).size,
    Stored op arr (b + (offset op.inp i + c) * op.stride) op.nout (Y i c)

theorem Cols.congr {op : Oper α} {arr arr' : Buf α} {b n : Nat} {Y : Nat → Nat → Nat → Nat → α} (h : Cols op arr b n Y)
    {m : Nat} (hm : b + offset op.inp n * op.stride ≤ m) (he : ∀ x < m, arr'.val x = arr.val x) : Cols op arr' b n Y := by
  intro i hi ha c hc
  refine (h i hi ha c hc).congr (m := m) ?_ he
  have h1 := offset_add_lt op.inp hi ha hc
  have : (offset op.inp i + c + 1) * op.stride ≤ offset op.inp n * op.stride := Nat.mul_le_mul_right _ h1
  rw [Nat.add_mul _ 1, Nat.one_mul] at this
  show _ + op.stride ≤ m
  omega

theorem columns_ok {op : Oper α} {S : Meaning α} (h : OpOK op S) (hpos : 0 < op.cOut) {L : Nat → Nat → α} {e : Nat}
    {z : Prop} (hsep : z → Separate op) (s : ASt α) (w : Nat → Buf α) {q : Nat → Buf α} (hq : ColInv op S L e z q) {arr : Buf α} {off : Nat}
    (hl : off + op.cIn * op.stride ≤ arr.len) :
    ∃ x : (Nat → Buf α) × Buf α × Nat, M.loop op.nin (columns op) (s.put w (q, arr, off)) = .ok (s.put w x) () ∧
      ColInv op S L e z x.1 ∧ x.2.1.len = arr.len ∧ x.2.2 = off + op.cIn * op.stride ∧
      (∀ y < off, x.2.1.val y = arr.val y) ∧
      (z → Cols op x.2.1 off op.nin (fun i c => op.eval (S.mix op L e (unit op i c)))) := by
  refine loop_ok (n := op.nin) (body := columns op) (fun x => s.put w x)
    (fun j x => ColInv op S L e z x.1 ∧ x.2.1.len = arr.len ∧ x.2.2 = off + offset op.inp j * op.stride ∧
      (∀ y < off, x.2.1.val y = arr.val y) ∧
      (z → Cols op x.2.1 off j (fun i c => op.eval (S.mix op L e (unit op i c)))))
    (a := (q, arr, off)) ⟨hq, rfl, by simp [offset], fun _ _ => rfl, fun _ i hi => absurd hi (by omega)⟩ ?_
  rintro i hi ⟨q1, a1, p1⟩ ⟨h1, h2, h3, h4, h5⟩
  simp only at h1 h2 h3 h4 h5
  unfold columns
  by_cases ha : (op.inp i).vec = .active
  swap
  · rw [if_neg ha]
    refine ⟨(q1, a1, p1), rfl, h1, h2, ?_, h4, ?_⟩
    · rw [offset_succ, if_neg ha]; exact h3
    · intro hz i' hi' ha'
      have : i' ≠ i := by rintro rfl; exact ha ha'
      exact h5 hz i' (by omega) ha'
  rw [if_pos ha]
  have hsucc := offset_succ op.inp i
  rw [if_pos ha] at hsucc
  have hle : (offset op.inp i + (op.inp i).size) * op.stride ≤ op.cIn * op.stride := by
    rw [← hsucc]; exact Nat.mul_le_mul_right _ (offset_mono _ hi)
  obtain ⟨x, e1, b1, b2, b3, b4, b5⟩ := loop_ok (n := (op.inp i).size) (body := column op i) (fun x => s.put w x)
    (fun c x => ColInv op S L e z x.1 ∧ x.2.1.len = arr.len ∧ x.2.2 = off + (offset op.inp i + c) * op.stride ∧
      (∀ y < p1, x.2.1.val y = a1.val y) ∧
      (z → ∀ c' < c, Stored op x.2.1 (off + (offset op.inp i + c') * op.stride) op.nout
        (op.eval (S.mix op L e (unit op i c')))))
    (a := (q1, a1, p1)) ⟨h1, h2, h3, fun _ _ => rfl, fun _ c hc => absurd hc (by omega)⟩
    (by
      rintro c hc ⟨q2, a2, p2⟩ ⟨d1, d2, d3, d4, d5⟩
      simp only at d1 d2 d3 d4 d5
      have hle2 : (offset op.inp i + c + 1) * op.stride ≤ op.cIn * op.stride :=
        Nat.mul_le_mul_right _ (offset_add_lt op.inp hi ha hc)
      rw [Nat.add_mul _ 1, Nat.one_mul] at hle2
      obtain ⟨x, e1, c1, c2, c3, c4, c5⟩ := column_ok h hpos hsep s w d1 hi ha hc (arr := a2) (off := p2) (by omega)
      have hp1 : p1 ≤ p2 := by
        rw [h3, d3]
        exact Nat.add_le_add_left (Nat.mul_le_mul_right _ (by omega)) _
      refine ⟨x, e1, c1, c2.trans d2, ?_, ?_, ?_⟩
      · rw [c3, d3, ← Nat.add_assoc _ c 1, Nat.add_mul _ 1, Nat.one_mul]; omega
      · intro y hy
        rw [c4 y (by omega), d4 y hy]
      · intro hz c' hc'
        by_cases hcc : c' = c
        · subst hcc; rw [← d3]; exact c5 hz
        · refine (d5 hz c' (by omega)).congr (m := p2) ?_ c4
          have : (offset op.inp i + c' + 1) * op.stride ≤ (offset op.inp i + c) * op.stride :=
            Nat.mul_le_mul_right _ (by omega)
          rw [Nat.add_mul _ 1, Nat.one_mul] at this
          show _ + op.stride ≤ p2
          omega)
  refine ⟨x, e1, b1, b2, by rw [b3, hsucc], ?_, ?_⟩
  · intro y hy
    rw [b4 y (by omega), h4 y hy]
  · intro hz i' hi' ha'
    by_cases hii : i' = i
    · subst hii; exact b5 hz
    · exact (h5 hz).congr (m := p1) (by omega) b4 i' (by omega) ha'

/-! ## All elements -/

/-- The columns of all elements below `n`. -/
def Elems (op : Oper α) (S : Meaning α) (L : Nat → Nat → α) (arr : Buf α) (n : Nat) : Prop :=
  ∀ e < n, Cols op arr (e * (op.cIn * op.stride)) op.nin (fun i c => op.eval (S.mix op L e (unit op i c)))

theorem assembleElems_ok {op : Oper α} {S : Meaning α} (h : OpOK op S) (hpos : 0 < op.cOut) {L : Nat → Nat → α}
    {z : Prop} (hsep : z → Separate op) (junk : Nat → Nat → α) (s : ASt α) (w : Nat → Buf α) (hp : PassPre op S L s.st) {q : Nat → Buf α}
    (hq : QOK op S q) (hz : z → Clean op q) {arr : Buf α} (hl : op.ne * (op.cIn * op.stride) ≤ arr.len) :
    ∃ x : (Nat → Buf α) × Buf α × Nat, M.loop op.ne (assembleElem op junk) (s.put w (q, arr, 0)) = .ok (s.put w x) () ∧
      QOK op S x.1 ∧ (z → Clean op x.1) ∧ x.2.1.len = arr.len ∧ (z → Elems op S L x.2.1 op.ne) := by
  obtain ⟨x, e1, h1, h2, h3, _, h5⟩ := loop_ok (n := op.ne) (body := assembleElem op junk) (fun x => s.put w x)
    (fun j x => QOK op S x.1 ∧ (z → Clean op x.1) ∧ x.2.1.len = arr.len ∧ x.2.2 = j * (op.cIn * op.stride) ∧
      (z → Elems op S L x.2.1 j))
    (a := (q, arr, 0)) ⟨hq, hz, rfl, by simp, fun _ e he => absurd he (by omega)⟩
    (by
      rintro e he ⟨q1, a1, p1⟩ ⟨h1, h2, h3, h4, h5⟩
      simp only at h1 h2 h3 h4 h5
      obtain ⟨q2, e1, b1, b2, b3⟩ := passiveBasis_ok h hp junk w he h1
      have e2 : liftS (inputBasis op junk true e) (s.put w (q1, a1, p1)) = .ok (s.put w (q2, a1, p1)) () :=
        liftS_ok (s := s.put w (q1, a1, p1)) e1
      have hc2 : ColInv op S L e z q2 := by
        refine ⟨b1, b2, fun hz => ?_⟩
        rcases h2 hz with hh | hh
        · refine Or.inl (fun i hi ha x hx => ?_)
          rw [b3 i ha]; exact hh i hi ha x hx
        · exact Or.inr hh
      have hle : e * (op.cIn * op.stride) + op.cIn * op.stride ≤ op.ne * (op.cIn * op.stride) := slot_le he
      obtain ⟨x, e3, c1, c2, c3, c4, c5⟩ := columns_ok h hpos hsep s w hc2 (arr := a1) (off := p1) (by omega)
      refine ⟨x, ?_, c1.qok, c1.clean, c2.trans h3, ?_, ?_⟩
      · unfold assembleElem
        simp only [M.bind_apply, e2, Out.bind_ok]
        exact e3
      · rw [c3, h4, Nat.add_mul, Nat.one_mul]
      · intro hz e' he'
        by_cases hee : e' = e
        · subst hee; rw [← h4]; exact c5 hz
        · refine (h5 hz e' (by omega)).congr (m := p1) ?_ c4
          have : (e' + 1) * (op.cIn * op.stride) ≤ e * (op.cIn * op.stride) := Nat.mul_le_mul_right _ (by omega)
          rw [Nat.add_mul, Nat.one_mul] at this
          show _ + op.cIn * op.stride ≤ p1
          omega)
  exact ⟨x, e1, h1, h2, h3, h5⟩

theorem Elems.columns {op : Oper α} {S : Meaning α} {L : Nat → Nat → α} {arr : Buf α} (h : Elems op S L arr op.ne)
    (hl : arr.len = op.ne * op.Q * op.cIn * op.cOut) : Columns op S L arr := by
  refine ⟨hl, ?_⟩
  intro e he i hi ha c hc o ho hao d hd q hq
  refine Eq.trans ?_ (h e he i hi ha c hc o ho hao d hd q hq)
  congr 1
  unfold Oper.apos Oper.stride
  ring

/-- Lines 504-521. -/
theorem zeroActive_ok {op : Oper α} {S : Meaning α} (h : OpOK op S) {s : ASt α} (hq : QOK op S s.st.impl.qIn) :
    ∃ q, M.loop op.nin (fun i => liftS (zeroActive op i)) s = .ok { s with st := s.st.put q s.st.impl.eOut } () ∧
      QOK op S q ∧ ActZero op q := by
  obtain ⟨q, e1, h1, h2⟩ := loop_ok (n := op.nin) (body := fun i => liftS (zeroActive op i))
    (fun q => ({ s with st := s.st.put q s.st.impl.eOut } : ASt α))
    (fun j q => QOK op S q ∧ ∀ i < j, (op.inp i).vec = .active → ∀ x < op.Q * (op.inp i).size, (q i).val x = 0)
    (a := s.st.impl.qIn) ⟨hq, fun i hi => absurd hi (by omega)⟩
    (by
      rintro i hi q ⟨h1, h2⟩
      by_cases ha : (op.inp i).vec = .active
      · refine ⟨Function.update q i ⟨(q i).len, fun _ => 0⟩, ?_, ?_, ?_⟩
        · refine liftS_ok ?_
          unfold zeroActive
          simp only [M.bind_apply, getS, Out.bind_ok, if_pos ha, setQ, modI, St.put]
        · intro j hj
          by_cases hji : j = i
          · subst hji
            rw [Function.update_self]
            refine ⟨(h1 j hj).1, fun hw => ?_⟩
            have := (h.in_weight hj hw).1
            rw [ha] at this; cases this
          · rw [Function.update_of_ne hji]; exact h1 j hj
        · intro j hj haj x hx
          by_cases hji : j = i
          · subst hji; rw [Function.update_self]
          · rw [Function.update_of_ne hji]; exact h2 j (by omega) haj x hx
      · refine ⟨q, ?_, h1, ?_⟩
        · refine liftS_ok ?_
          unfold zeroActive
          simp only [M.bind_apply, getS, Out.bind_ok, if_neg ha, M.pure_apply]
        · intro j hj haj
          have : j ≠ i := by rintro rfl; exact ha haj
          exact h2 j (by omega) haj)
  exact ⟨q, e1, h1, h2⟩

end Operator
end Verif
