import Verif.Operator.OptAsmSpec
import Verif.Operator.OptProps
import Verif.Operator.AssembleRun

/-!
# Columns of the QFunction on a block (helper lemmas)
-/

set_option linter.unusedSectionVars false

namespace Verif
namespace Operator

open Finset
open Restriction (RData Made Rstr Rep laneEnd)
open Basis (Bas EMode)

variable {α : Type} [CommRing α]

/-- The identity QFunction has one input and one output, of the same size. -/
def IdOK (op : Oper α) : Prop := op.isId = true → op.nin = 1 ∧ op.nout = 1 ∧ (op.out 0).size = (op.inp 0).size

/-- Input arrays with the values `P` of the passive inputs and `a` of the active inputs. -/
def mixv (op : Oper α) (P a : Nat → Nat → α) : Nat → Nat → α :=
  fun i x => if i < op.nin ∧ x < op.Q * (op.inp i).size then if (op.inp i).vec = .active then a i x else P i x else 0

/-- The arrays given to the QFunction when component `c` of input `i` is set to one. -/
theorem clipG_unit {op : Oper α} {P : Nat → Nat → α} {q : Nat → Buf α}
    (hv : ∀ i < op.nin, (op.inp i).vec ≠ .active → ∀ x < op.Q * (op.inp i).size, (q i).val x = P i x) {i c : Nat} (hi : i < op.nin) (ha : (op.inp i).vec = .active) (hc : c < (op.inp i).size)
    (hz : ActZero op q ∨ op.cIn = 1) :
    clip op (Function.update q i (Buf.row (q i) (c * op.Q) op.Q 1)) = mixv op P (unit op i c) := by
  funext j x
  unfold clip mixv
  split
  swap
  · rfl
  rename_i hh
  obtain ⟨hj, hx⟩ := hh
  have hQ : 0 < op.Q := Nat.pos_of_ne_zero (by rintro h0; rw [h0] at hx; simp at hx)
  have hxs : x / op.Q < (op.inp j).size := Nat.div_lt_of_lt_mul hx
  by_cases haj : (op.inp j).vec = .active
  · rw [if_pos haj]
    unfold unit
    by_cases hji : j = i
    · subst hji
      rw [Function.update_self]
      show (if c * op.Q ≤ x ∧ x < c * op.Q + op.Q then (1 : α) else (q j).val x) = _
      by_cases hxc : x / op.Q = c
      · rw [if_pos ((div_eq_iff_slot hQ).1 hxc), if_pos ⟨rfl, hxc⟩]
      · rw [if_neg (fun hh => hxc ((div_eq_iff_slot hQ).2 hh)), if_neg (fun hh => hxc hh.2)]
        rcases hz with hz | hz
        · exact hz j hj haj x hx
        · exact absurd (single hz hj hj haj haj hc hxs).2 hxc
    · rw [Function.update_of_ne hji, if_neg (fun hh => hji hh.1)]
      rcases hz with hz | hz
      · exact hz j hj haj x hx
      · exact absurd (single hz hi hj ha haj hc hxs).1 hji
  · have hji : j ≠ i := by rintro rfl; exact haj ha
    rw [if_neg haj, Function.update_of_ne hji]
    exact hv j hj haj x hx

theorem emitG_ok {op : Oper α} (h : IdOK op) (hpos : 0 < op.cOut) (s : ASt α) (w : Nat → Buf α)
    (q : Nat → Buf α) (arr : Buf α) (off : Nat) (y : Nat → Nat → α) (hl : off + op.cOut * op.Q ≤ arr.len) :
    ∃ arr', emit op y (s.put w (q, arr, off)) = .ok (s.put w (q, arr', off + op.cOut * op.Q)) () ∧
      arr'.len = arr.len ∧ (∀ x < off, arr'.val x = arr.val x) ∧ Stored op arr' off op.nout y := by
  unfold emit
  by_cases hid : op.isId = true
  · rw [if_pos hid]
    obtain ⟨_, hn, _⟩ := h hid
    have hco : op.cOut = offset op.out 1 := by unfold Oper.cOut; rw [hn]
    have hact : (op.out 0).vec = .active := by
      by_contra hna
      rw [hco, offset_succ, if_neg hna] at hpos
      simp [offset] at hpos
    have hsz : op.cOut = (op.out 0).size := by rw [hco, offset_succ, if_pos hact]; simp [offset]
    rw [hsz] at hl ⊢
    refine ⟨paste arr off ⟨(op.out 0).size * op.Q, y 0⟩, putArr_ok (s := s.put w (q, arr, off)) (y 0) hl, rfl,
      fun x hx => paste_below _ _ _ hx, ?_⟩
    rw [hn]
    intro o ho _ d hd p hp
    have ho0 : o = 0 := by omega
    subst ho0
    have hlt : d * op.Q + p < (op.out 0).size * op.Q := by
      have := enc3_lt (a := d) (b := 0) (n := (op.out 0).size) (by omega) hp
      simpa using this
    rw [show off + (offset op.out 0 + d) * op.Q + p = off + (d * op.Q + p) by simp [offset]; ring]
    exact paste_at _ _ _ _ hlt
  · rw [if_neg hid]
    obtain ⟨⟨arr', off'⟩, e1, h1, h2, h3, h4⟩ := loop_ok (n := op.nout) (body := emit1 op y)
      (fun x : Buf α × Nat => s.put w (q, x.1, x.2))
      (fun j x => x.1.len = arr.len ∧ x.2 = off + offset op.out j * op.Q ∧ (∀ z < off, x.1.val z = arr.val z) ∧
        Stored op x.1 off j y) (a := (arr, off)) ⟨rfl, by simp [offset], fun _ _ => rfl, fun o ho => absurd ho (by omega)⟩
      (by
        rintro o ho ⟨a, p⟩ ⟨h1, h2, h3, h4⟩
        simp only at h1 h2 h3 h4
        unfold emit1
        by_cases ha : (op.out o).vec = .active
        · rw [if_pos ha]
          have hsucc := offset_succ op.out o
          rw [if_pos ha] at hsucc
          have hle : (offset op.out o + (op.out o).size) * op.Q ≤ op.cOut * op.Q := by
            rw [← hsucc]; exact Nat.mul_le_mul_right _ (offset_mono _ ho)
          rw [Nat.add_mul] at hle
          refine ⟨(paste a p ⟨(op.out o).size * op.Q, y o⟩, p + (op.out o).size * op.Q),
            putArr_ok (s := s.put w (q, a, p)) (y o) (by show p + _ ≤ a.len; omega), h1, ?_, ?_, ?_⟩
          · show p + _ = _
            rw [hsucc, Nat.add_mul]; omega
          · intro z hz
            show (paste a p _).val z = _
            rw [paste_below _ _ _ (by omega), h3 z hz]
          · intro o' ho' ha' d hd r hr
            by_cases hoo : o' = o
            · subst hoo
              have hlt : d * op.Q + r < (op.out o').size * op.Q := by
                have := enc3_lt (a := d) (b := 0) (n := (op.out o').size) (by omega) hr
                simpa using this
              have := paste_at a p ((op.out o').size * op.Q) (y o') hlt
              rw [← this]
              congr 1
              rw [h2, Nat.add_mul]; omega
            · exact h4.congr (m := p) (by omega) (fun x hx => paste_below _ _ _ hx) o' (by omega) ha' d hd r hr
        · rw [if_neg ha]
          refine ⟨(a, p), rfl, h1, ?_, h3, ?_⟩
          · rw [offset_succ, if_neg ha]; exact h2
          · intro o' ho' ha'
            have : o' ≠ o := by rintro rfl; exact ha ha'
            exact h4 o' (by omega) ha')
    exact ⟨arr', by rw [e1, h2]; rfl, h1, h3, h4⟩

theorem evalG_clip {op : Oper α} (h : IdOK op) (q : Nat → Buf α) {o x : Nat} (ho : o < op.nout)
    (hx : x < op.Q * (op.out o).size) : evalQF op q o x = op.eval (clip op q) o x := by
  unfold evalQF Oper.eval
  by_cases hid : op.isId = true
  · rw [if_pos hid, if_pos hid]
    obtain ⟨h1, h2, h3⟩ := h hid
    have ho0 : o = 0 := by omega
    subst ho0
    unfold clip
    rw [if_pos ⟨by omega, by rw [← h3]; exact hx⟩]
  · rw [if_neg hid, if_neg hid]

/-- What holds of the quadrature data during the assembly of a block: `q0` are the data before. -/
structure GCol (op : Oper α) (P : Nat → Nat → α) (q0 : Nat → Buf α) (z : Prop) (q : Nat → Buf α) : Prop where
  len : ∀ i < op.nin, (q i).len = op.Q * (op.inp i).size
  pass : ∀ i < op.nin, (op.inp i).vec ≠ .active → ∀ x < op.Q * (op.inp i).size, (q i).val x = P i x
  same : ∀ i, (op.inp i).vec ≠ .active → q i = q0 i
  clean : z → Clean op q

theorem GCol.rows {op : Oper α} {P : Nat → Nat → α} {q0 : Nat → Buf α} {z : Prop}
    {q : Nat → Buf α} (hq : GCol op P q0 z q) {i : Nat} (hi : i < op.nin) (ha : (op.inp i).vec = .active) (c : Nat) :
    GCol op P q0 z (Function.update (Function.update q i (Buf.row (q i) (c * op.Q) op.Q 1)) i
      (Buf.row (Buf.row (q i) (c * op.Q) op.Q 1) (c * op.Q) op.Q 0)) := by
  rw [Function.update_idem]
  refine ⟨?_, ?_, ?_, ?_⟩
  · intro j hj
    by_cases hji : j = i
    · subst hji
      rw [Function.update_self]
      exact hq.len j hj
    · rw [Function.update_of_ne hji]; exact hq.len j hj
  · intro j hj hn
    have hji : j ≠ i := by rintro rfl; exact hn ha
    rw [Function.update_of_ne hji]; exact hq.pass j hj hn
  · intro j hn
    have hji : j ≠ i := by rintro rfl; exact hn ha
    rw [Function.update_of_ne hji]; exact hq.same j hn
  · intro hz
    rcases hq.clean hz with h1 | h1
    · refine Or.inl (fun j hj haj x hx => ?_)
      by_cases hji : j = i
      · subst hji
        rw [Function.update_self]
        show (if c * op.Q ≤ x ∧ x < c * op.Q + op.Q then (0 : α)
          else if c * op.Q ≤ x ∧ x < c * op.Q + op.Q then 1 else (q j).val x) = 0
        split
        · rfl
        · exact h1 j hj haj x hx
      · rw [Function.update_of_ne hji]; exact h1 j hj haj x hx
    · exact Or.inr h1

theorem columnB_ok {op : Oper α} (h : IdOK op) (hs : Separate op) (hpos : 0 < op.cOut) {P : Nat → Nat → α}
    {q0 : Nat → Buf α} {z : Prop} (s : ASt α) (w : Nat → Buf α) {q : Nat → Buf α} (hq : GCol op P q0 z q) {i c : Nat} (hi : i < op.nin)
    (ha : (op.inp i).vec = .active) (hc : c < (op.inp i).size) {arr : Buf α} {off : Nat}
    (hl : off + op.stride ≤ arr.len) :
    ∃ x : (Nat → Buf α) × Buf α × Nat, columnB op i c (s.put w (q, arr, off)) = .ok (s.put w x) () ∧
      GCol op P q0 z x.1 ∧ x.2.1.len = arr.len ∧ x.2.2 = off + op.stride ∧ (∀ y < off, x.2.1.val y = arr.val y) ∧
      (z → Stored op x.2.1 off op.nout (op.eval (mixv op P (unit op i c)))) := by
  have hlen := hq.len i hi
  set q1 := Function.update q i (Buf.row (q i) (c * op.Q) op.Q 1) with hq1
  have e1 : liftS (setRow op i c 1) (s.put w (q, arr, off)) = .ok (s.put w (q1, arr, off)) () :=
    liftS_ok (setRow_ok (s := s.st) (w := w) 1 hlen hc)
  obtain ⟨arr', e2, h1, h2, h3⟩ := emitG_ok h hpos s w q1 arr off (evalQF op q1) hl
  have hlen1 : (q1 i).len = op.Q * (op.inp i).size := by rw [hq1, Function.update_self]; exact hlen
  have e3 : liftS (setRow op i c 0) (s.put w (q1, arr', off + op.cOut * op.Q)) = .ok (s.put w
      (Function.update q1 i (Buf.row (q1 i) (c * op.Q) op.Q 0), arr', off + op.cOut * op.Q)) () :=
    liftS_ok (setRow_ok (s := s.st) (w := w) 0 hlen1 hc)
  refine ⟨(Function.update q1 i (Buf.row (q1 i) (c * op.Q) op.Q 0), arr', off + op.cOut * op.Q), ?_, ?_, h1, rfl, h2, ?_⟩
  · unfold columnB
    have y1 : ∀ t : ASt α, liftS (syncQ op i) t = .ok t () := fun t => liftS_ok (t := t.st) (syncQ_ok hs hi t.st)
    simp only [M.bind_apply, e1, Out.bind_ok, getA, y1]
    rw [show (s.put w (q1, arr, off)).st.impl.qIn = q1 from rfl, e2]
    simp only [Out.bind_ok, e3]
  · have := hq.rows hi ha c
    rw [hq1, Function.update_self]
    exact this
  · intro hz o ho hao d hd p hp
    rw [h3 o ho hao d hd p hp]
    have hx : d * op.Q + p < op.Q * (op.out o).size := by
      have := enc3_lt (a := d) (b := 0) (n := (op.out o).size) (by omega) hp
      rw [Nat.mul_comm op.Q]; simpa using this
    rw [evalG_clip h q1 ho hx, hq1, clipG_unit hq.pass hi ha hc (hq.clean hz)]

theorem columnsB_ok {op : Oper α} (h : IdOK op) (hs : Separate op) (hpos : 0 < op.cOut) {P : Nat → Nat → α}
    {q0 : Nat → Buf α} {z : Prop} (s : ASt α) (w : Nat → Buf α) {q : Nat → Buf α} (hq : GCol op P q0 z q) {arr : Buf α} {off : Nat}
    (hl : off + op.cIn * op.stride ≤ arr.len) :
    ∃ x : (Nat → Buf α) × Buf α × Nat, M.loop op.nin (columnsB op) (s.put w (q, arr, off)) = .ok (s.put w x) () ∧
      GCol op P q0 z x.1 ∧ x.2.1.len = arr.len ∧ x.2.2 = off + op.cIn * op.stride ∧
      (∀ y < off, x.2.1.val y = arr.val y) ∧
      (z → Cols op x.2.1 off op.nin (fun i c => op.eval (mixv op P (unit op i c)))) := by
  refine loop_ok (n := op.nin) (body := columnsB op) (fun x => s.put w x)
    (fun j x => GCol op P q0 z x.1 ∧ x.2.1.len = arr.len ∧ x.2.2 = off + offset op.inp j * op.stride ∧
      (∀ y < off, x.2.1.val y = arr.val y) ∧
      (z → Cols op x.2.1 off j (fun i c => op.eval (mixv op P (unit op i c)))))
    (a := (q, arr, off)) ⟨hq, rfl, by simp [offset], fun _ _ => rfl, fun _ i hi => absurd hi (by omega)⟩ ?_
  rintro i hi ⟨q1, a1, p1⟩ ⟨h1, h2, h3, h4, h5⟩
  simp only at h1 h2 h3 h4 h5
  unfold columnsB
  by_cases ha : (op.inp i).vec = .active
  swap
  · rw [if_neg ha]
    refine ⟨(q1, a1, p1), rfl, h1, h2, ?_, h4, ?_⟩
    · rw [offset_succ, if_neg ha]; exact h3
    · intro hz i' hi' ha'
      have : i' ≠ i := by rintro rfl; exact ha ha'
      exact h5 hz i' (by omega) ha'
  rw [if_pos ha]
  have hsucc := offset_succ op.inp i
  rw [if_pos ha] at hsucc
  have hle : (offset op.inp i + (op.inp i).size) * op.stride ≤ op.cIn * op.stride := by
    rw [← hsucc]; exact Nat.mul_le_mul_right _ (offset_mono _ hi)
  obtain ⟨x, e1, b1, b2, b3, b4, b5⟩ := loop_ok (n := (op.inp i).size) (body := columnB op i) (fun x => s.put w x)
    (fun c x => GCol op P q0 z x.1 ∧ x.2.1.len = arr.len ∧ x.2.2 = off + (offset op.inp i + c) * op.stride ∧
      (∀ y < p1, x.2.1.val y = a1.val y) ∧
      (z → ∀ c' < c, Stored op x.2.1 (off + (offset op.inp i + c') * op.stride) op.nout
        (op.eval (mixv op P (unit op i c')))))
    (a := (q1, a1, p1)) ⟨h1, h2, h3, fun _ _ => rfl, fun _ c hc => absurd hc (by omega)⟩
    (by
      rintro c hc ⟨q2, a2, p2⟩ ⟨d1, d2, d3, d4, d5⟩
      simp only at d1 d2 d3 d4 d5
      have hle2 : (offset op.inp i + c + 1) * op.stride ≤ op.cIn * op.stride :=
        Nat.mul_le_mul_right _ (offset_add_lt op.inp hi ha hc)
      rw [Nat.add_mul _ 1, Nat.one_mul] at hle2
      obtain ⟨x, e1, c1, c2, c3, c4, c5⟩ := columnB_ok h hs hpos s w d1 hi ha hc (arr := a2) (off := p2) (by omega)
      have hp1 : p1 ≤ p2 := by
        rw [h3, d3]
        exact Nat.add_le_add_left (Nat.mul_le_mul_right _ (by omega)) _
      refine ⟨x, e1, c1, c2.trans d2, ?_, ?_, ?_⟩
      · rw [c3, d3, ← Nat.add_assoc _ c 1, Nat.add_mul _ 1, Nat.one_mul]; omega
      · intro y hy
        rw [c4 y (by omega), d4 y hy]
      · intro hz c' hc'
        by_cases hcc : c' = c
        · subst hcc; rw [← d3]; exact c5 hz
        · refine (d5 hz c' (by omega)).congr (m := p2) ?_ c4
          have : (offset op.inp i + c' + 1) * op.stride ≤ (offset op.inp i + c) * op.stride :=
            Nat.mul_le_mul_right _ (by omega)
          rw [Nat.add_mul _ 1, Nat.one_mul] at this
          show _ + op.stride ≤ p2
          omega)
  refine ⟨x, e1, b1, b2, by rw [b3, hsucc], ?_, ?_⟩
  · intro y hy
    rw [b4 y (by omega), h4 y hy]
  · intro hz i' hi' ha'
    by_cases hii : i' = i
    · subst hii; exact b5 hz
    · exact (h5 hz).congr (m := p1) (by omega) b4 i' (by omega) ha'

end Operator
end Verif
