import Verif.Operator.AtPointsAsmRun

/-!
# QFunction assembled at points: columns, elements and sizes (helper lemmas)
-/

set_option linter.unusedSectionVars false

namespace Verif
namespace Operator

open Finset Polynomial
open Restriction (RData Made Rstr PointsOK ptsIn ptAt ptsBefore)
open Basis (Bas EMode PBas Env Fresh Shape Exact Used pev along coord pointPos)

variable {K : Type} [Field K] [LinearOrder K]

theorem actComps_mono (f : Nat → OField K) {a b : Nat} (h : a ≤ b) : actComps f a ≤ actComps f b :=
  monotone_nat_of_le_succ (f := actComps f) (fun n => by show _ ≤ actComps f n + _; exact Nat.le_add_right _ _) h

theorem actComps_act (f : Nat → OField K) {i : Nat} (h : (f i).vec = .active) : actComps f (i + 1) = actComps f i + (f i).size := by
  show _ + (if _ then _ else _) = _
  rw [if_pos h]

theorem actComps_pas (f : Nat → OField K) {i : Nat} (h : (f i).vec ≠ .active) : actComps f (i + 1) = actComps f i := by
  show _ + (if _ then _ else _) = _
  rw [if_neg h, Nat.add_zero]

/-- What is stored for component `c` of input `i`, if `ptr` is the position of the element. -/
def ColFact (P : POper K) (S : PMean K) (L : Nat → Nat → K) (e ptr i c : Nat) (pos : Nat) (x : K) : Prop :=
  ∃ o < P.op.nout, (P.op.out o).vec = .active ∧ ∃ z < S.np e * (P.op.out o).size,
    pos = ptr + (actComps P.op.inp i + c) * (actComps P.op.out P.op.nout * S.np e) + actComps P.op.out o * S.np e + z ∧
      x = P.F (S.np e) (S.unitArr P L e i c) o z

theorem columnsAt_ok {P : POper K} {S : PMean K} {b0 : Nat → PBas K} (hA : AtOK P S b0) (hI : P.op.isId = false) {L : Nat → Nat → K} {e : Nat}
    (he : e < P.op.ne) {xe : Buf K} {d : Dyn K} (s : PSt K) (vs : Nat → LVec K) (off : Nat) {i : Nat}
    (h : PQ P S b0 L e xe d P.op.nin none) (hi : i < P.op.nin) (hm : (P.op.inp i).vec = .active → (P.op.inp i).mode ≠ .none)
    {asm : Buf K} {ptr : Nat} (qi qo : Nat) {F : Nat → K → Prop}
    (hk : Kept asm (ptr + actComps P.op.inp i * (actComps P.op.out P.op.nout * S.np e)) F)
    (hb : ptr + actComps P.op.inp P.op.nin * (actComps P.op.out P.op.nout * S.np e) ≤ asm.len) :
    ∃ d' asm', columnsQ P (S.np e) i ⟨s.put d vs off, asm, ptr + actComps P.op.inp i * (actComps P.op.out P.op.nout * S.np e), qi, qo⟩ =
        .ok ⟨s.put d' vs off, asm', ptr + actComps P.op.inp (i + 1) * (actComps P.op.out P.op.nout * S.np e), qi, qo⟩ () ∧
      PQ P S b0 L e xe d' P.op.nin none ∧ asm'.len = asm.len ∧
      Kept asm' (ptr + actComps P.op.inp (i + 1) * (actComps P.op.out P.op.nout * S.np e)) (fun pos x => F pos x ∨
        ((P.op.inp i).vec = .active ∧ ∃ c < (P.op.inp i).size, ColFact P S L e ptr i c pos x)) := by
  unfold columnsQ
  by_cases ha : (P.op.inp i).vec = .active
  · rw [if_pos ha]
    have hle := Nat.mul_le_mul_right (actComps P.op.out P.op.nout * S.np e) (actComps_mono P.op.inp (show i + 1 ≤ P.op.nin from hi))
    rw [actComps_act _ ha] at hle
    obtain ⟨⟨d', asm', ptr'⟩, e1, h1, h2, h3, h4⟩ := loop_ok (n := (P.op.inp i).size) (body := columnQ P (S.np e) i)
      (fun a : Dyn K × Buf K × Nat => (⟨s.put a.1 vs off, a.2.1, a.2.2, qi, qo⟩ : QSt K))
      (fun c a => PQ P S b0 L e xe a.1 P.op.nin none ∧ a.2.1.len = asm.len ∧
        a.2.2 = ptr + (actComps P.op.inp i + c) * (actComps P.op.out P.op.nout * S.np e) ∧
        Kept a.2.1 a.2.2 (fun pos x => F pos x ∨ ∃ c' < c, ColFact P S L e ptr i c' pos x))
      (a := (d, asm, ptr + actComps P.op.inp i * (actComps P.op.out P.op.nout * S.np e)))
      ⟨h, rfl, rfl, fun pos x hx => by
        rcases hx with hx | ⟨c', hc', _⟩
        · exact hk pos x hx
        · omega⟩
      (fun c hc a ⟨a1, a2, a3, a4⟩ => by
        have hlc := Nat.mul_le_mul_right (actComps P.op.out P.op.nout * S.np e)
          (show actComps P.op.inp i + c + 1 ≤ actComps P.op.inp i + (P.op.inp i).size by omega)
        rw [Nat.add_mul (_ + c) 1, Nat.one_mul] at hlc
        obtain ⟨d2, asm2, e2, b1, b2, b3⟩ := columnAt_ok hA hI he s vs off a1 hi ha (hm ha) hc qi qo a4 (by
          rw [a2, a3]; omega)
        refine ⟨(d2, asm2, a.2.2 + actComps P.op.out P.op.nout * S.np e), e2, b1, b2.trans a2, ?_, ?_⟩
        · show a.2.2 + _ = _
          rw [a3]; ring
        · intro pos x hx
          apply b3
          rcases hx with hx | ⟨c', hc', hf⟩
          · exact Or.inl (Or.inl hx)
          · by_cases hcc : c' = c
            · subst hcc
              right
              obtain ⟨o, ho, hao, z, hz, hpos, hval⟩ := hf
              exact ⟨o, ho, hao, z, hz, by rw [hpos, a3], hval⟩
            · exact Or.inl (Or.inr ⟨c', by omega, hf⟩))
    simp only at h1 h2 h3 h4 e1
    subst h3
    refine ⟨d', asm', ?_, h1, h2, ?_⟩
    · rw [actComps_act _ ha]; exact e1
    · rw [actComps_act _ ha]
      intro pos x hx
      apply h4
      rcases hx with hx | ⟨_, hf⟩
      · exact Or.inl hx
      · exact Or.inr hf
  · rw [if_neg ha, actComps_pas _ ha]
    refine ⟨d, asm, rfl, h, rfl, ?_⟩
    intro pos x hx
    rcases hx with hx | ⟨hh, _⟩
    · exact hk pos x hx
    · exact absurd hh ha

/-- What is stored for an element. -/
def ElFact (P : POper K) (S : PMean K) (L : Nat → Nat → K) (e : Nat) (pos : Nat) (x : K) : Prop :=
  ∃ i < P.op.nin, (P.op.inp i).vec = .active ∧ ∃ c < (P.op.inp i).size,
    ColFact P S L e (ptsBefore S.offX e * (actComps P.op.inp P.op.nin * actComps P.op.out P.op.nout)) i c pos x

theorem asmElement_wp [IsStrictOrderedRing K] {P : POper K} {S : PMean K} {b0 : Nat → PBas K} (h : AtOK P S b0) (hI : P.op.isId = false)
    (hm : ∀ i < P.op.nin, (P.op.inp i).vec = .active → (P.op.inp i).mode ≠ .none)
    {L : Nat → Nat → K} {s : PSt K} (hp : APre P S L s.base) {en : Env K} (hen : Exact en)
    {e : Nat} (he : e < P.op.ne) {vs : Nat → LVec K} {d : Dyn K} (hd : DInv P S b0 d) (hz : ZeroAct P d)
    (hC : P.coords (fun v => (vs v).buf.val) = P.coords L) {asm : Buf K} (qi qo : Nat) {F : Nat → K → Prop}
    (hk : Kept asm (ptsBefore S.offX e * (actComps P.op.inp P.op.nin * actComps P.op.out P.op.nout)) F)
    (hb : ptsBefore S.offX (e + 1) * (actComps P.op.inp P.op.nin * actComps P.op.out P.op.nout) ≤ asm.len)
    {R : Prop} (hR : R → CoordL P vs) :
    M.wp R (asmElement P en e) ⟨s.put d vs (ptsBefore S.offX e), asm,
        ptsBefore S.offX e * (actComps P.op.inp P.op.nin * actComps P.op.out P.op.nout), qi, qo⟩
      (fun s' _ => ∃ d' asm', s' = ⟨s.put d' vs (ptsBefore S.offX (e + 1)), asm',
          ptsBefore S.offX (e + 1) * (actComps P.op.inp P.op.nin * actComps P.op.out P.op.nout), qi, qo⟩ ∧ DInv P S b0 d' ∧ ZeroAct P d' ∧
        asm'.len = asm.len ∧ Kept asm' (ptsBefore S.offX (e + 1) * (actComps P.op.inp P.op.nin * actComps P.op.out P.op.nout))
          (fun pos x => F pos x ∨ ElFact P S L e pos x))
      (fun _ _ => ¬ R) := by
  have hoff : ptsBefore S.offX e + S.np e = ptsBefore S.offX (e + 1) := (Restriction.before_succ S.offX e).symm
  have hptr : ptsBefore S.offX (e + 1) * (actComps P.op.inp P.op.nin * actComps P.op.out P.op.nout) =
      ptsBefore S.offX e * (actComps P.op.inp P.op.nin * actComps P.op.out P.op.nout) +
        actComps P.op.inp P.op.nin * (actComps P.op.out P.op.nout * S.np e) := by
    rw [← hoff]; ring
  unfold asmElement
  rw [M.wp_bind]
  refine M.wp_mono (onQA_wp (s := ⟨s.put d vs (ptsBefore S.offX e), asm,
        ptsBefore S.offX e * (actComps P.op.inp P.op.nin * actComps P.op.out P.op.nout), qi, qo⟩)
      (coordsEl_wp h hd vs (ptsBefore S.offX e) he hR)) ?_ ?_
  swap
  · rintro s' _ ⟨b, _, c1, _⟩
    exact c1
  rintro s' n ⟨b, rfl, rfl, xe, rfl, d1, hX, _⟩
  have hX' : CoordsAt P S L e xe := by
    intro p hp' dd hdd
    rw [hX p hp' dd hdd]
    unfold PMean.point
    rw [hC]
  obtain ⟨d2, e2, p2⟩ := loop_ok (n := P.op.nin) (body := passEl P en e (S.np e)) (fun d => s.put d vs (ptsBefore S.offX e))
    (fun j d => PQ P S b0 L e xe d j none) (a := { d with xe := xe })
    ⟨d1, rfl, fun j hj => absurd hj (by omega), fun j hj haj _ => hz j hj haj⟩
    (fun i hi d' hd' => passEl_ok h hp he hi hd' hen hX')
  rw [M.wp_bind]
  refine M.wp_of_eq_ok (onQA_ok (s := ⟨s.put { d with xe := xe } vs (ptsBefore S.offX e), asm,
        ptsBefore S.offX e * (actComps P.op.inp P.op.nin * actComps P.op.out P.op.nout), qi, qo⟩) e2) ?_
  rw [M.wp_bind]
  obtain ⟨⟨d3, asm3, ptr3⟩, e3, a1, a2, a3, a4⟩ := loop_ok (n := P.op.nin) (body := columnsQ P (S.np e))
    (fun a : Dyn K × Buf K × Nat => (⟨s.put a.1 vs (ptsBefore S.offX e), a.2.1, a.2.2, qi, qo⟩ : QSt K))
    (fun i a => PQ P S b0 L e xe a.1 P.op.nin none ∧ a.2.1.len = asm.len ∧
      a.2.2 = ptsBefore S.offX e * (actComps P.op.inp P.op.nin * actComps P.op.out P.op.nout) +
        actComps P.op.inp i * (actComps P.op.out P.op.nout * S.np e) ∧
      Kept a.2.1 a.2.2 (fun pos x => F pos x ∨ ∃ i' < i, (P.op.inp i').vec = .active ∧ ∃ c < (P.op.inp i').size,
        ColFact P S L e (ptsBefore S.offX e * (actComps P.op.inp P.op.nin * actComps P.op.out P.op.nout)) i' c pos x))
    (a := (d2, asm, ptsBefore S.offX e * (actComps P.op.inp P.op.nin * actComps P.op.out P.op.nout)))
    ⟨p2, rfl, by show _ = _ + 0 * _; rw [Nat.zero_mul, Nat.add_zero], fun pos x hx => by
      rcases hx with hx | ⟨c', hc', _⟩
      · exact hk pos x hx
      · omega⟩
    (fun i hi a ⟨a1, a2, a3, a4⟩ => by
      obtain ⟨d', asm, ptr⟩ := a
      simp only at a1 a2 a3 a4
      subst a3
      obtain ⟨d4, asm4, e4, b1, b2, b3⟩ := columnsAt_ok h hI he s vs (ptsBefore S.offX e) a1 hi (hm i hi) qi qo a4 (by
        rw [a2, ← hptr]; exact hb)
      refine ⟨(d4, asm4, _), e4, b1, b2.trans a2, rfl, ?_⟩
      intro pos x hx
      apply b3
      rcases hx with hx | ⟨i', hi', hact, hf⟩
      · exact Or.inl (Or.inl hx)
      · by_cases hii : i' = i
        · subst hii
          exact Or.inr ⟨hact, hf⟩
        · exact Or.inl (Or.inr ⟨i', by omega, hact, hf⟩))
  simp only at a1 a2 a3 a4 e3
  subst a3
  refine M.wp_of_eq_ok e3 ?_
  refine M.wp_of_eq_ok (s' := ⟨s.put d3 vs (ptsBefore S.offX (e + 1)), asm3,
      ptsBefore S.offX (e + 1) * (actComps P.op.inp P.op.nin * actComps P.op.out P.op.nout), qi, qo⟩) (a := ()) ?_
    ⟨d3, asm3, rfl, a1.dinv, fun j hj haj => a1.act j hj haj (by simp), a2, ?_⟩
  · rw [hptr, ← hoff]; rfl
  · rw [hptr]
    exact a4

theorem asmElements_wp [IsStrictOrderedRing K] {P : POper K} {S : PMean K} {b0 : Nat → PBas K} (h : AtOK P S b0) (hI : P.op.isId = false)
    (hm : ∀ i < P.op.nin, (P.op.inp i).vec = .active → (P.op.inp i).mode ≠ .none)
    {L : Nat → Nat → K} {s : PSt K} (hp : APre P S L s.base) {en : Env K} (hen : Exact en)
    {vs : Nat → LVec K} {d : Dyn K} (hd : DInv P S b0 d) (hz : ZeroAct P d)
    (hC : P.coords (fun v => (vs v).buf.val) = P.coords L) {asm : Buf K} (qi qo : Nat)
    (hb : ptsBefore S.offX P.op.ne * (actComps P.op.inp P.op.nin * actComps P.op.out P.op.nout) ≤ asm.len)
    {R : Prop} (hR : R → CoordL P vs) :
    M.wp R (M.loop P.op.ne (asmElement P en)) ⟨s.put d vs 0, asm, 0, qi, qo⟩
      (fun s' _ => ∃ d' asm', s' = ⟨s.put d' vs (ptsBefore S.offX P.op.ne), asm',
          ptsBefore S.offX P.op.ne * (actComps P.op.inp P.op.nin * actComps P.op.out P.op.nout), qi, qo⟩ ∧ DInv P S b0 d' ∧ ZeroAct P d' ∧
        asm'.len = asm.len ∧ Kept asm' (ptsBefore S.offX P.op.ne * (actComps P.op.inp P.op.nin * actComps P.op.out P.op.nout))
          (fun pos x => ∃ e < P.op.ne, ElFact P S L e pos x))
      (fun _ _ => ¬ R) := by
  refine M.wp_loop (fun e s' => ∃ d' asm', s' = (⟨s.put d' vs (ptsBefore S.offX e), asm',
          ptsBefore S.offX e * (actComps P.op.inp P.op.nin * actComps P.op.out P.op.nout), qi, qo⟩ : QSt K) ∧ DInv P S b0 d' ∧ ZeroAct P d' ∧
        asm'.len = asm.len ∧ Kept asm' (ptsBefore S.offX e * (actComps P.op.inp P.op.nin * actComps P.op.out P.op.nout))
          (fun pos x => ∃ e' < e, ElFact P S L e' pos x)) ?_ ?_
  · refine ⟨d, asm, by simp [ptsBefore], hd, hz, rfl, ?_⟩
    rintro pos x ⟨e', he', _⟩
    omega
  · rintro e he s' ⟨d', asm', rfl, a1, a2, a3, a4⟩
    refine M.wp_mono (asmElement_wp h hI hm hp hen he a1 a2 hC qi qo a4 (by
      rw [a3]
      exact le_trans (Nat.mul_le_mul_right _ (Restriction.before_mono S.offX he)) hb) hR) ?_ (fun _ _ hh => hh)
    rintro s' _ ⟨d2, asm2, rfl, b1, b2, b3, b4⟩
    refine ⟨d2, asm2, rfl, b1, b2, b3.trans a3, ?_⟩
    rintro pos x ⟨e', he', hf⟩
    apply b4
    by_cases hee : e' = e
    · subst hee; exact Or.inr hf
    · exact Or.inl ⟨e', by omega, hf⟩

theorem assembled_of {P : POper K} {S : PMean K} {L : Nat → Nat → K} {asm : Buf K} {n : Nat} (hl : n ≤ asm.len)
    (h : Kept asm n (fun pos x => ∃ e < P.op.ne, ElFact P S L e pos x)) : S.Assembled P L asm := by
  intro e he i hi hact c hc o ho hao k hk p hp
  have hz : k * S.np e + p < S.np e * (P.op.out o).size := by
    have := Nat.mul_le_mul_left (S.np e) (show k + 1 ≤ (P.op.out o).size from hk)
    rw [Nat.mul_add, Nat.mul_one, Nat.mul_comm (S.np e) k] at this
    omega
  have := h (S.asmPos P e i c o k p) _ ⟨e, he, i, hi, hact, c, hc, o, ho, hao, k * S.np e + p, hz, by
    unfold PMean.asmPos; ring, rfl⟩
  exact ⟨by omega, this.2⟩

/-! ## Sizes -/

theorem countInAt_ok {P : POper K} {n : Nat} (h : ∀ i < n, (P.op.inp i).vec = .active → atPts P (P.op.inp i) = false) :
    countInAt P n = .ok (actComps P.op.inp n) := by
  induction n with
  | zero => rfl
  | succ n ih =>
    unfold countInAt
    rw [ih (fun i hi => h i (by omega))]
    by_cases ha : (P.op.inp n).vec = .active
    · rw [actComps_act _ ha]
      simp [ha, h n (by omega) ha, bind, Res.bind]
    · rw [actComps_pas _ ha]
      simp [ha, bind, Res.bind]

theorem countInAt_inv {P : POper K} {n m : Nat} (h : countInAt P n = .ok m) :
    m = actComps P.op.inp n ∧ ∀ i < n, (P.op.inp i).vec = .active → atPts P (P.op.inp i) = false := by
  suffices hs : ∀ i < n, (P.op.inp i).vec = .active → atPts P (P.op.inp i) = false by
    rw [countInAt_ok hs] at h
    exact ⟨(Res.ok.inj h).symm, hs⟩
  induction n generalizing m with
  | zero => intro i hi; omega
  | succ n ih =>
    unfold countInAt at h
    cases e1 : countInAt P n with
    | err c => rw [e1] at h; cases h
    | ub => rw [e1] at h; cases h
    | ok k =>
      rw [e1] at h
      intro i hi ha
      by_cases hin : i = n
      · subst hin
        cases hp : atPts P (P.op.inp i) with
        | false => rfl
        | true => simp [ha, hp, bind, Res.bind] at h
      · exact ih e1 i (by omega) ha

theorem countInAt_noub {P : POper K} (n : Nat) : countInAt P n ≠ .ub := by
  induction n with
  | zero => intro h; cases h
  | succ n ih =>
    unfold countInAt
    cases e1 : countInAt P n with
    | err c => intro h; cases h
    | ub => exact absurd e1 ih
    | ok k =>
      by_cases ha : (P.op.inp n).vec = .active
      · cases hp : atPts P (P.op.inp n) <;> simp [ha, hp, bind, Res.bind]
      · simp [ha, bind, Res.bind]

theorem clearOut_ok {P : POper K} {S : PMean K} {b0 : Nat → PBas K} (h : AtOK P S b0) {s : PSt K} {d : Dyn K} (hd : DInv P S b0 d) (hz : ZeroAct P d)
    (vs : Nat → LVec K) (off : Nat) {o : Nat} (ho : o < P.op.nin) (hw : (P.op.inp o).mode ≠ .weight) :
    ∃ d', clearOut P o (s.put d vs off) = .ok (s.put d' vs off) () ∧ DInv P S b0 d' ∧ ZeroAct P d' := by
  unfold clearOut
  rw [if_pos ho]
  by_cases ha : (P.op.inp o).vec = .active
  · obtain ⟨d', e, c1, _, _, c2, _, c3⟩ := clearQ_ok h (s := s) hd vs off ho ha
    refine ⟨d', e, c1, fun j hj haj x => ?_⟩
    by_cases hji : j = o
    · subst hji; exact c2 x
    · rw [c3 j hji]; exact hz j hj haj x
  · have hn : ¬ ((P.op.inp o).mode = .none ∧ (P.op.inp o).vec = .active) := fun hh => ha hh.2
    refine ⟨{ d with q := Function.update d.q o ⟨(d.q o).len, fun _ => 0⟩ }, ?_, { hd with q := ?_, wt := ?_ }, ?_⟩
    · unfold clearQ putQBuf
      simp only [M.bind_apply, getP, Out.bind_ok, PSt.put, qBuf, if_neg hn, putQ, modD]
    · intro j hj
      show (Function.update d.q o _ j).len = _
      by_cases hji : j = o
      · subst hji; rw [Function.update_self]; exact hd.q j hj
      · rw [Function.update_of_ne hji]; exact hd.q j hj
    · intro j hj hwj
      show ∀ x < _, (Function.update d.q o _ j).val x = 1
      rw [Function.update_of_ne (fun hh : j = o => hw (hh ▸ hwj))]
      exact hd.wt j hj hwj
    · intro j hj haj x
      have hji : j ≠ o := fun hh => ha (hh ▸ haj)
      have : qBuf P { d with q := Function.update d.q o ⟨(d.q o).len, fun _ => 0⟩ } j = qBuf P d j := by
        unfold qBuf
        show (if _ then d.eb j else Function.update d.q o _ j) = _
        rw [Function.update_of_ne hji]
      rw [this]
      exact hz j hj haj x

theorem countOutAt_wp {P : POper K} {S : PMean K} {b0 : Nat → PBas K} (h : AtOK P S b0) (hk : AsmAtOK P S) {s : PSt K} {d : Dyn K}
    (hd : DInv P S b0 d) (hz : ZeroAct P d) (vs : Nat → LVec K) (off : Nat) {n : Nat} (hn : n ≤ P.op.nout) {R : Prop}
    (hR : R → ∀ o < n, (P.op.out o).vec = .active → atPts P (P.op.out o) = false) :
    M.wp R (countOutAt P n) (s.put d vs off) (fun s' m => m = actComps P.op.out n ∧
        (∀ o < n, (P.op.out o).vec = .active → atPts P (P.op.out o) = false) ∧
        ∃ d', s' = s.put d' vs off ∧ DInv P S b0 d' ∧ ZeroAct P d') (fun _ _ => ¬ R) := by
  induction n with
  | zero =>
    unfold countOutAt
    rw [M.wp_pure]
    exact ⟨rfl, fun o ho => absurd ho (by omega), d, rfl, hd, hz⟩
  | succ n ih =>
    unfold countOutAt
    rw [M.wp_bind]
    refine M.wp_mono (ih (by omega) (fun rr o ho => hR rr o (by omega))) ?_ (fun _ _ hh => hh)
    rintro s' m ⟨rfl, hall, d1, rfl, hd1, hz1⟩
    have hext : ((P.op.out n).vec = .active → atPts P (P.op.out n) = false) →
        ∀ o < n + 1, (P.op.out o).vec = .active → atPts P (P.op.out o) = false := by
      intro hh o ho hao
      by_cases hon : o = n
      · subst hon; exact hh hao
      · exact hall o (by omega) hao
    by_cases ha : (P.op.out n).vec = .active
    · rw [if_pos ha]
      by_cases hp : atPts P (P.op.out n) = true
      · rw [if_pos hp]
        refine M.wp_of_eq_err (s' := s.put d1 vs off) (a := .backend) rfl (fun rr => ?_)
        have := hR rr n (by omega) ha
        rw [hp] at this; cases this
      · rw [if_neg hp]
        obtain ⟨d2, e2, c1, c2⟩ := clearOut_ok h (s := s) hd1 hz1 vs off (hk.index n (by omega) ha) (hk.weight n (by omega) ha)
        rw [M.wp_bind]
        refine M.wp_of_eq_ok e2 ?_
        rw [M.wp_pure]
        exact ⟨(actComps_act _ ha).symm, hext (fun _ => by simpa using hp), d2, rfl, c1, c2⟩
    · rw [if_neg ha, M.wp_pure]
      exact ⟨(actComps_pas _ ha).symm, hext (fun hh => absurd hh ha), d1, rfl, hd1, hz1⟩

end Operator
end Verif
