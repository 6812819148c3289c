import Verif.Operator.AtPointsAsmSpec
import Verif.Operator.AtPointsDiagProps
import Verif.Operator.AssembleLemmas

/-!
# QFunction assembled at points (helper lemmas)
-/

set_option linter.unusedSectionVars false

namespace Verif
namespace Operator

open Finset Polynomial
open Restriction (RData Made Rstr PointsOK ptsIn ptAt ptsBefore)
open Basis (Bas EMode PBas Env Fresh Shape Exact Used pev along coord pointPos)

variable {K : Type} [Field K]

theorem onQA_wp {β : Type} {m : M (PSt K) β} {s : QSt K} {R : Prop} {Q : PSt K → β → Prop} {E : PSt K → Err → Prop}
    (h : M.wp R m s.p Q E) :
    M.wp R (onQA m) s (fun s' a => ∃ b, s' = { s with p := b } ∧ Q b a) (fun s' a => ∃ b, s' = { s with p := b } ∧ E b a) := by
  cases e : m s.p with
  | ok b a => exact M.wp_of_eq_ok (s' := { s with p := b }) (a := a) (by unfold onQA; rw [e]) ⟨b, rfl, M.wp_ok h e⟩
  | err b a => exact M.wp_of_eq_err (s' := { s with p := b }) (a := a) (by unfold onQA; rw [e]) ⟨b, rfl, M.wp_err h e⟩
  | ub => exact M.wp_of_eq_ub (by unfold onQA; rw [e]) (M.wp_ub h e)

theorem onQA_ok {β : Type} {m : M (PSt K) β} {s : QSt K} {b : PSt K} {a : β} (e : m s.p = .ok b a) :
    onQA m s = .ok { s with p := b } a := by
  unfold onQA
  rw [e]

/-- Facts about the part of the array before the pointer. -/
def Kept (asm : Buf K) (ptr : Nat) (F : Nat → K → Prop) : Prop := ∀ pos x, F pos x → pos < ptr ∧ asm.val pos = x

theorem storeActs_ok (P : POper K) (np : Nat) (y : Nat → Nat → K) (t : QSt K) {F : Nat → K → Prop} (hk : Kept t.asm t.ptr F)
    (hb : t.ptr + actComps P.op.out P.op.nout * np ≤ t.asm.len) :
    ∃ asm', M.loop P.op.nout (storeAct P np y) t = .ok { t with asm := asm', ptr := t.ptr + actComps P.op.out P.op.nout * np } () ∧
      asm'.len = t.asm.len ∧ Kept asm' (t.ptr + actComps P.op.out P.op.nout * np) (fun pos x => F pos x ∨
        ∃ o < P.op.nout, (P.op.out o).vec = .active ∧ ∃ z < np * (P.op.out o).size, pos = t.ptr + actComps P.op.out o * np + z ∧ x = y o z) := by
  have hmono : ∀ n, n ≤ P.op.nout → actComps P.op.out n ≤ actComps P.op.out P.op.nout := by
    intro n hn
    exact monotone_nat_of_le_succ (f := actComps P.op.out) (fun n => by show _ ≤ actComps P.op.out n + _; exact Nat.le_add_right _ _) hn
  obtain ⟨⟨asm', ptr'⟩, e, h1, h2, h3⟩ := loop_ok (n := P.op.nout) (body := storeAct P np y)
    (fun a : Buf K × Nat => ({ t with asm := a.1, ptr := a.2 } : QSt K))
    (fun j a => a.1.len = t.asm.len ∧ a.2 = t.ptr + actComps P.op.out j * np ∧ Kept a.1 a.2 (fun pos x => F pos x ∨
        ∃ o < j, (P.op.out o).vec = .active ∧ ∃ z < np * (P.op.out o).size, pos = t.ptr + actComps P.op.out o * np + z ∧ x = y o z))
    (a := (t.asm, t.ptr)) ⟨rfl, by simp [actComps], fun pos x h => by
      rcases h with h | ⟨o, ho, _⟩
      · exact hk pos x h
      · omega⟩
    (fun o ho a ⟨a1, a2, a3⟩ => by
      unfold storeAct
      by_cases hact : (P.op.out o).vec = .active
      · have hsucc : actComps P.op.out (o + 1) = actComps P.op.out o + (P.op.out o).size := by
          show _ + (if _ then _ else _) = _
          rw [if_pos hact]
        have hle := Nat.mul_le_mul_right np (hmono (o + 1) ho)
        rw [hsucc, Nat.add_mul] at hle
        have hsl : slice a.1 a.2 (np * (P.op.out o).size) = .ok ⟨np * (P.op.out o).size, fun x => a.1.val (a.2 + x)⟩ := by
          unfold slice
          rw [if_pos]
          rw [a1, a2, Nat.mul_comm np]
          omega
        refine ⟨(paste a.1 a.2 ⟨np * (P.op.out o).size, y o⟩, a.2 + np * (P.op.out o).size), ?_, a1, ?_, ?_⟩
        · rw [if_pos hact]
          simp only [M.bind_apply, getQA, Out.bind_ok, hsl, M.lift_ok, modQA]
        · show a.2 + _ = _
          rw [a2, hsucc, Nat.add_mul, Nat.mul_comm np, Nat.add_assoc]
        · intro pos x hx
          have hold : (F pos x ∨ ∃ o' < o, (P.op.out o').vec = .active ∧ ∃ z < np * (P.op.out o').size,
              pos = t.ptr + actComps P.op.out o' * np + z ∧ x = y o' z) →
              pos < a.2 + np * (P.op.out o).size ∧ (paste a.1 a.2 ⟨np * (P.op.out o).size, y o⟩).val pos = x := by
            intro hh
            obtain ⟨c1, c2⟩ := a3 pos x hh
            exact ⟨by omega, by rw [paste_below _ _ _ c1]; exact c2⟩
          rcases hx with hx | ⟨o', ho', hact', z, hz, hpos, hval⟩
          · exact hold (Or.inl hx)
          · by_cases heq : o' = o
            · subst heq
              rw [← a2] at hpos
              rw [hpos, hval]
              exact ⟨by show a.2 + z < a.2 + _; omega, paste_at _ _ _ _ hz⟩
            · exact hold (Or.inr ⟨o', by omega, hact', z, hz, hpos, hval⟩)
      · refine ⟨a, by rw [if_neg hact]; rfl, a1, ?_, ?_⟩
        · rw [a2]
          show _ = t.ptr + (_ + (if _ then _ else _)) * np
          rw [if_neg hact, Nat.add_zero]
        · intro pos x hx
          rcases hx with hx | ⟨o', ho', hact', hz⟩
          · exact a3 pos x (Or.inl hx)
          · by_cases heq : o' = o
            · subst heq; exact absurd hact' hact
            · exact a3 pos x (Or.inr ⟨o', by omega, hact', hz⟩))
  subst h2
  exact ⟨asm', e, h1, h3⟩

variable [LinearOrder K]

/-! ## Units -/

theorem PQ.setAct {P : POper K} {S : PMean K} {b0 : Nat → PBas K} (hA : AtOK P S b0) {L : Nat → Nat → K} {e : Nat} {xe : Buf K} {d : Dyn K} {i : Nat}
    {o : Option Nat} (ho : o = none ∨ o = some i) (h : PQ P S b0 L e xe d P.op.nin o) (hi : i < P.op.nin) (ha : (P.op.inp i).vec = .active)
    {v : Buf K} (hv : v.len = (d.q i).len) :
    PQ P S b0 L e xe { d with q := Function.update d.q i v } P.op.nin (some i) := by
  have hw := hA.act_notWeight hi ha
  refine ⟨{ h.dinv with q := ?_, wt := ?_ }, h.xe, ?_, ?_⟩
  · intro j hj
    show (Function.update d.q i v j).len = _
    by_cases hji : j = i
    · subst hji; rw [Function.update_self, hv]; exact h.dinv.q j hj
    · rw [Function.update_of_ne hji]; exact h.dinv.q j hj
  · intro j hj hwj
    show ∀ x < _, (Function.update d.q i v j).val x = 1
    rw [Function.update_of_ne (fun hh : j = i => hw (hh ▸ hwj))]
    exact h.dinv.wt j hj hwj
  · intro j hj hna
    show ∀ x < _, (Function.update d.q i v j).val x = _
    rw [Function.update_of_ne (fun hh : j = i => hna (hh ▸ ha))]
    exact h.pas j hj hna
  · intro j hj haj hne x
    have hji : j ≠ i := fun hh => hne (by rw [hh])
    have : qBuf P { d with q := Function.update d.q i v } j = qBuf P d j := by
      unfold qBuf
      show (if _ then d.eb j else Function.update d.q i v j) = _
      rw [Function.update_of_ne hji]
    rw [this]
    refine h.act j hj haj ?_ x
    rcases ho with rfl | rfl
    · simp
    · exact hne

theorem unitQ_ok {P : POper K} {S : PMean K} {b0 : Nat → PBas K} {s : PSt K} {d : Dyn K} (vs : Nat → LVec K) (off : Nat) {i c np : Nat} {x : K}
    (hm : (P.op.inp i).mode ≠ .none) (hl : c * np + np ≤ (d.q i).len) :
    unitQ P i c np x (s.put d vs off) = .ok (s.put { d with q := Function.update d.q i ⟨(d.q i).len, fun t =>
      if c * np ≤ t ∧ t < c * np + np then x else (d.q i).val t⟩ } vs off) () := by
  have hq : qBuf P (s.put d vs off).d i = d.q i := by
    unfold qBuf
    rw [if_neg (fun hh => hm hh.1)]
    rfl
  unfold unitQ
  simp only [M.bind_apply, getP, Out.bind_ok, hq]
  rw [if_pos hl]
  unfold putQBuf
  rw [if_neg (fun hh => hm hh.1)]
  rfl

theorem clipAt_unit {P : POper K} {S : PMean K} {b0 : Nat → PBas K} {L : Nat → Nat → K} {e : Nat} {xe : Buf K} {d : Dyn K} {i c : Nat}
    (h : PQ P S b0 L e xe d P.op.nin (some i)) (hm : (P.op.inp i).mode ≠ .none) (ha : (P.op.inp i).vec = .active)
    (hv : ∀ t, (d.q i).val t = if c * S.np e ≤ t ∧ t < c * S.np e + S.np e then 1 else 0) :
    clipAt P (S.np e) d = S.unitArr P L e i c := by
  funext j x
  unfold clipAt PMean.unitArr
  by_cases hc : j < P.op.nin ∧ x < S.np e * (P.op.inp j).size
  · rw [if_pos hc, if_pos hc]
    by_cases hja : (P.op.inp j).vec = .active
    · rw [if_pos hja]
      by_cases hji : j = i
      · subst hji
        have hq : qBuf P d j = d.q j := by
          unfold qBuf
          rw [if_neg (fun hh => hm hh.1)]
        rw [hq, hv]
        have hpos : 0 < S.np e := by
          rcases Nat.eq_zero_or_pos (S.np e) with h0 | h0
          · rw [h0, Nat.zero_mul] at hc; omega
          · exact h0
        have : (c * S.np e ≤ x ∧ x < c * S.np e + S.np e) ↔ (j = j ∧ x / S.np e = c) := by
          rw [Nat.div_eq_iff hpos]
          constructor
          · rintro ⟨h1, h2⟩; exact ⟨rfl, h1, by omega⟩
          · rintro ⟨_, h1, h2⟩; exact ⟨h1, by omega⟩
        by_cases hcc : c * S.np e ≤ x ∧ x < c * S.np e + S.np e
        · rw [if_pos hcc, if_pos (this.1 hcc)]
        · rw [if_neg hcc, if_neg (fun hh => hcc (this.2 hh))]
      · rw [if_neg (fun hh => hji hh.1)]
        exact h.act j hc.1 hja (fun hh => hji (Option.some.inj hh)) x
    · rw [if_neg hja]
      have hq : qBuf P d j = d.q j := by
        unfold qBuf
        rw [if_neg (fun hh => hja hh.2)]
      rw [hq]
      exact h.pas j hc.1 hja x hc.2
  · rw [if_neg hc, if_neg hc]

theorem columnAt_ok {P : POper K} {S : PMean K} {b0 : Nat → PBas K} (hA : AtOK P S b0) (hI : P.op.isId = false) {L : Nat → Nat → K} {e : Nat}
    (he : e < P.op.ne) {xe : Buf K} {d : Dyn K} (s : PSt K) (vs : Nat → LVec K) (off : Nat) {i c : Nat}
    (h : PQ P S b0 L e xe d P.op.nin none) (hi : i < P.op.nin) (ha : (P.op.inp i).vec = .active) (hm : (P.op.inp i).mode ≠ .none)
    (hc : c < (P.op.inp i).size) {asm : Buf K} {ptr : Nat} (qi qo : Nat) {F : Nat → K → Prop} (hk : Kept asm ptr F)
    (hb : ptr + actComps P.op.out P.op.nout * S.np e ≤ asm.len) :
    ∃ d' asm', columnQ P (S.np e) i c ⟨s.put d vs off, asm, ptr, qi, qo⟩ =
        .ok ⟨s.put d' vs off, asm', ptr + actComps P.op.out P.op.nout * S.np e, qi, qo⟩ () ∧ PQ P S b0 L e xe d' P.op.nin none ∧
      asm'.len = asm.len ∧ Kept asm' (ptr + actComps P.op.out P.op.nout * S.np e) (fun pos x => F pos x ∨
        ∃ o < P.op.nout, (P.op.out o).vec = .active ∧ ∃ z < S.np e * (P.op.out o).size, pos = ptr + actComps P.op.out o * S.np e + z ∧
          x = P.F (S.np e) (S.unitArr P L e i c) o z) := by
  have hq : qBuf P d i = d.q i := by
    unfold qBuf
    rw [if_neg (fun hh => hm hh.1)]
  have hz : ∀ t, (d.q i).val t = 0 := by
    intro t
    rw [← hq]
    exact h.act i hi ha (by simp) t
  have hl : c * S.np e + S.np e ≤ (d.q i).len := by
    rw [h.dinv.q i hi]
    have h1 : (c + 1) * S.np e ≤ (P.op.inp i).size * mxOf P.op S := Nat.mul_le_mul hc (np_le he)
    rw [Nat.add_mul, Nat.one_mul, Nat.mul_comm _ (mxOf P.op S)] at h1
    exact h1
  let v1 : Buf K := ⟨(d.q i).len, fun t => if c * S.np e ≤ t ∧ t < c * S.np e + S.np e then 1 else (d.q i).val t⟩
  have e1 := unitQ_ok (P := P) (S := S) (b0 := b0) (s := s) (d := d) vs off (i := i) (c := c) (np := S.np e) (x := (1 : K)) hm hl
  have p1 : PQ P S b0 L e xe { d with q := Function.update d.q i v1 } P.op.nin (some i) := h.setAct hA (Or.inl rfl) hi ha rfl
  have c1 : clipAt P (S.np e) { d with q := Function.update d.q i v1 } = S.unitArr P L e i c := by
    refine clipAt_unit p1 hm ha fun t => ?_
    show (Function.update d.q i v1 i).val t = _
    rw [Function.update_self]
    show (if _ then _ else (d.q i).val t) = _
    rw [hz]
  obtain ⟨asm', e2, l2, k2⟩ := storeActs_ok P (S.np e) (P.F (S.np e) (S.unitArr P L e i c))
    ⟨s.put { d with q := Function.update d.q i v1 } vs off, asm, ptr, qi, qo⟩ hk hb
  have e3 := unitQ_ok (P := P) (S := S) (b0 := b0) (s := s) (d := { d with q := Function.update d.q i v1 }) vs off (i := i) (c := c)
    (np := S.np e) (x := (0 : K)) hm (by show _ ≤ (Function.update d.q i v1 i).len; rw [Function.update_self]; exact hl)
  have p3 := p1.setAct hA (Or.inr rfl) hi ha (v := ⟨((Function.update d.q i v1) i).len, fun t =>
      if c * S.np e ≤ t ∧ t < c * S.np e + S.np e then 0 else ((Function.update d.q i v1) i).val t⟩) rfl
  refine ⟨{ { d with q := Function.update d.q i v1 } with q := Function.update (Function.update d.q i v1) i ⟨((Function.update d.q i v1) i).len, fun t =>
      if c * S.np e ≤ t ∧ t < c * S.np e + S.np e then 0 else ((Function.update d.q i v1) i).val t⟩ }, asm', ?_, ⟨p3.dinv, p3.xe, p3.pas, ?_⟩, l2, k2⟩
  · unfold columnQ
    simp only [M.bind_apply, onQA_ok (s := ⟨s.put d vs off, asm, ptr, qi, qo⟩) e1, Out.bind_ok, hI]
    rw [if_neg (by simp)]
    simp only [M.bind_apply, getQA, Out.bind_ok]
    have c1' : clipAt P (S.np e) (s.put { d with q := Function.update d.q i v1 } vs off).d = S.unitArr P L e i c := c1
    rw [c1', e2, Out.bind_ok]
    exact onQA_ok (s := ⟨s.put { d with q := Function.update d.q i v1 } vs off, asm', ptr + actComps P.op.out P.op.nout * S.np e, qi, qo⟩) e3
  · intro j hj haj _ x
    by_cases hji : j = i
    · subst hji
      unfold qBuf
      rw [if_neg (fun hh => hm hh.1)]
      simp only [Function.update_self]
      by_cases hcc : c * S.np e ≤ x ∧ x < c * S.np e + S.np e
      · rw [if_pos hcc]
      · rw [if_neg hcc]
        show (if _ then _ else (d.q j).val x) = _
        rw [if_neg hcc]
        exact hz x
    · exact p3.act j hj haj (fun hh => hji (Option.some.inj hh)) x

end Operator
end Verif
