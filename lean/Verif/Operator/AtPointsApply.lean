import Verif.Operator.AtPointsOut

/-!
# Application of operators at points (helper lemmas)
-/

set_option linter.unusedSectionVars false

namespace Verif
namespace Operator

open Finset Polynomial
open Restriction (RData Made Rstr Rep laneEnd PointsOK ptsIn ptAt ptsBefore)
open Basis (Bas EMode PBas Env Fresh Shape Exact Used pev along coord pointPos)

variable {K : Type} [Field K] [LinearOrder K]

/-! ## One element -/

theorem elemAdds_eq {P : POper K} {S : PMean K} {b0 : Nat → PBas K} (h : AtOK P S b0) {L : Nat → Nat → K} {inv : VPtr} {e o : Nat}
    (ho : o < P.op.nout) {xe : Buf K} (hX : CoordsAt P S L e xe) {y : Nat → Nat → K}
    (hy : ∀ x < S.np e * (P.op.out o).size, y o x = S.outArr P L inv e o x) (t : Nat) :
    scR P.op S e (P.op.out o).r (elOut P S (S.np e) xe y o) t = S.elemAdds P L inv o e t := by
  rcases mode_cases (P.op.out o).mode with hm | hm | hm
  · exact absurd hm (h.out o ho).notWeight
  · obtain ⟨k1, k2⟩ := (h.out o ho).none hm
    unfold scR PMean.elemAdds elOut
    simp only [hm, if_true]
    rw [if_pos k1, k2]
    refine sum_congr rfl (fun p hp => sum_congr rfl (fun j hj => ?_))
    rw [mem_range] at hp hj
    rw [hy _ (by rw [Nat.mul_comm (S.np e)]; exact enc_lt hj hp)]
    rfl
  · have hnn : (P.op.out o).mode ≠ .none := by intro hh; rw [hh] at hm; simp [isBasisMode] at hm
    obtain ⟨f1, f2, f3, f4, f5, f6, f7, _⟩ := (h.out o ho).basis hm
    obtain ⟨k1, _⟩ := f2.facts
    set b := (b0 (P.outB o)).bas with hb
    have hadd : S.elemAdds P L inv o e t = ∑ c ∈ range (S.D (P.op.out o).r).nc, ∑ m ∈ range (S.D (P.op.out o).r).es,
        ∑ m' ∈ range (S.D (P.op.out o).r).es,
        if (S.D (P.op.out o).r).lidx e m' c = t then (S.D (P.op.out o).r).coef e m m' * ∑ p ∈ range (S.np e), ∑ k ∈ range (b.qComp (P.op.out o).mode),
          S.outArr P L inv e o (pointPos b.nc (S.np e) k c p) * shapeVal b (S.phi (P.outB o)) (P.op.out o).mode (S.point P L e p) k m else 0 := by
      unfold PMean.elemAdds
      rcases f1 with f1 | f1 <;> simp only [f1, f3] <;> rfl
    rw [hadd]
    unfold scR
    rw [if_neg k1]
    unfold RData.elemScatter
    refine sum_congr rfl (fun c hc => sum_congr rfl (fun n hn => sum_congr rfl (fun m _ => ?_)))
    rw [mem_range] at hc hn
    split
    · congr 1
      unfold elOut
      simp only [if_neg hnn, f3]
      rw [← f4, div_enc (by rw [f4]; exact hn), mod_enc (by rw [f4]; exact hn)]
      refine sum_congr rfl (fun p hp => sum_congr rfl (fun k hk => ?_))
      rw [mem_range] at hp hk
      rw [hy _ (by
        rw [f6]
        unfold pointPos
        rw [Nat.mul_comm (S.np e), Nat.mul_comm b.nc]
        exact enc_lt (enc_lt hk (by rw [f5]; exact hc)) hp)]
      congr 1
      unfold Basis.shapeAt shapeVal
      refine prod_congr rfl (fun dd hdd => ?_)
      rw [mem_range] at hdd
      rw [hX p hp dd (by rw [← f7]; exact hdd)]
    · rfl

/-- What element `e` adds to vector `v`. -/
noncomputable def elTrue (P : POper K) (S : PMean K) (L : Nat → Nat → K) (inv outv : VPtr) (e v t : Nat) : K :=
  ∑ o ∈ range P.op.nout, if (P.op.out o).vec.ptr outv = .vec v then S.elemAdds P L inv o e t else 0

/-- Readiness of the coordinates. -/
def CoordL (P : POper K) (vs : Nat → LVec K) : Prop :=
  ∀ rX xv, P.points = some (rX, xv) → (vs xv).valid = true ∧ rX.lSize ≤ (vs xv).buf.len

/-- Readiness for one element. -/
def ElReady (P : POper K) (inv outv : VPtr) (vs : Nat → LVec K) : Prop :=
  CoordL P vs ∧ (∀ i < P.op.nin, ActL P inv vs i) ∧ ∀ o < P.op.nout, OutL P outv vs o

theorem ElReady.step {P : POper K} {inv outv : VPtr} {a b : Nat → LVec K} (h : VStep P.op outv a b) :
    ElReady P inv outv b ↔ ElReady P inv outv a := by
  unfold ElReady
  refine and_congr ?_ (and_congr ?_ ?_)
  · unfold CoordL
    refine forall_congr' (fun rX => forall_congr' (fun xv => ?_))
    rw [h.valid, (h.adv xv).1]
  · refine forall_congr' (fun i => ?_)
    unfold ActL
    simp only [h.valid, fun v => (h.adv v).1]
  · exact forall_congr' (fun o => imp_congr_right (fun _ => OutL.step h o))

theorem identityEl_wp {P : POper K} {S : PMean K} {b0 : Nat → PBas K} (h : AtOK P S b0) (hI : P.op.isId = true)
    {L : Nat → Nat → K} {s : PSt K} (hp : APre P S L s.base) (en : Env K) {inv outv : VPtr}
    {e : Nat} (he : e < P.op.ne) {vs : Nat → LVec K} {off : Nat} {A : Prop} {xe : Buf K} (y : Nat → Nat → K) {d : Dyn K}
    (hd : InA P S b0 L inv vs e A xe d P.op.nin) {R : Prop} (hR : R → ∀ o < P.op.nout, OutL P outv vs o) :
    M.wp R (M.loop P.op.nout (outputEl P en outv e (S.np e) y)) (s.put d vs off) (fun s' _ =>
      (∀ o < P.op.nout, OutL P outv vs o) ∧ ∃ vs', s' = s.put d vs' off ∧ VStep P.op outv vs vs' ∧
      (A → ∀ v t, (vs' v).buf.val t = (vs v).buf.val t + elTrue P S L inv outv e v t))
      (fun s' _ => ¬ R ∧ ∃ vs', s' = s.put d vs' off ∧ VStep P.op outv vs vs') := by
  obtain ⟨n1, n2, n3, n4⟩ := h.ident hI
  have hi : 0 < P.op.nin := by omega
  have ho : 0 < P.op.nout := by omega
  obtain ⟨k1, k2⟩ := (h.out 0 ho).none n4
  obtain ⟨hrk, hrid⟩ := (h.out 0 ho).ok
  have hl : last P.op 0 = 0 := by have := last_lt P.op ho; omega
  rw [n2]
  have hu : (qBuf P d 0).len = lenR P.op S (mxOf P.op S) (P.op.out 0).r := by
    unfold lenR
    rw [if_pos k1, k2, n3]
    unfold qBuf
    split
    · rename_i hh
      have hw : (P.op.inp 0).mode ≠ .weight := by rw [hh.1]; simp
      obtain ⟨j1, j2⟩ := (h.inp 0 hi hw).none hh.1
      rw [hd.dinv.eb 0 hi hw]
      unfold lenR
      rw [if_pos j1, j2]
    · exact hd.dinv.q 0 hi
  have hl1 : M.loop 1 (outputEl P en outv e (S.np e) y) = outputEl P en outv e (S.np e) y 0 := by
    funext s0
    rw [M.loop_succ]
    rfl
  rw [hl1]
  unfold outputEl
  rw [M.wp_bind]
  refine M.wp_of_eq_ok (s' := s.put d vs off) (a := ()) (by unfold outBasisEl; rw [if_pos n4]; rfl) ?_
  unfold outScatterEl
  rw [M.wp_bind]
  refine M.wp_of_eq_ok (s' := s.put d vs off) (a := s.put d vs off) rfl ?_
  rw [if_neg (show ¬ (s.put d vs off).base.impl.ot.skip 0 = true from fun hh => by have := (hp.oskip 0 ho).1 hh; omega), M.wp_bind]
  refine M.wp_of_eq_ok (s' := s.put d vs off) (a := 0) ?_ ?_
  · show pptr (s.base.impl.ot.full 0) _ = _
    rw [hp.ofull 0 ho, hl]; rfl
  rw [M.wp_bind]
  refine M.wp_of_eq_ok (s' := s.put d vs off) (a := (P.op.out 0).r) (by rw [hrid]; rfl) ?_
  rw [if_pos (show P.op.isId = true ∧ 0 = 0 from ⟨hI, rfl⟩)]
  refine M.wp_mono (scatterEl_wp h (s := s) ho (outv := outv) he (d := d) (off := off) (vs := vs) (u := qBuf P d 0) hu (R := R)
        (fun r => hR r 0 ho)) ?_ ?_
  · rintro s' _ ⟨c1, vs2, rfl, c2, c3⟩
    refine ⟨?_, vs2, rfl, c2, ?_⟩
    · intro o ho'
      have : o = 0 := by omega
      rw [this]; exact c1
    · intro a v t
      rw [c3]
      congr 1
      unfold elTrue
      rw [n2, sum_range_one]
      split
      · have hadd : S.elemAdds P L inv 0 e t = scR P.op S e (P.op.out 0).r (S.outArr P L inv e 0) t := by
          unfold PMean.elemAdds scR
          simp only [n4]
          rw [if_pos k1, k2]
          rfl
        rw [hadd]
        refine scR_congr (fun x hx => ?_) t
        unfold cntR at hx
        rw [if_pos k1, k2, n3] at hx
        rw [hd.q a 0 hi x hx]
        unfold PMean.outArr
        rw [if_pos hI]
        unfold PMean.inArr
        rw [if_pos ⟨hi, hx⟩]
      · rfl
  · rintro s' _ ⟨c1, rfl⟩
    exact ⟨c1, vs, rfl, VStep.refl _ _ _⟩

theorem element_wp [IsStrictOrderedRing K] {P : POper K} {S : PMean K} {b0 : Nat → PBas K} (h : AtOK P S b0)
    {L : Nat → Nat → K} {s : PSt K} (hp : APre P S L s.base) {en : Env K} (hen : Exact en) {inv outv : VPtr}
    {e : Nat} (he : e < P.op.ne) {vs : Nat → LVec K} {A : Prop} {d : Dyn K} (hd : DInv P S b0 d)
    (hA : A → (∀ i < P.op.nin, (P.op.inp i).mode ≠ .weight → (P.op.inp i).vec = .active → cont (fun v => (vs v).buf.val) inv = cont L inv) ∧
      P.coords (fun v => (vs v).buf.val) = P.coords L) {R : Prop} (hR : R → ElReady P inv outv vs) :
    M.wp R (elementAt P en inv outv e) (s.put d vs (ptsBefore S.offX e)) (fun s' _ => ElReady P inv outv vs ∧
      ∃ d' vs', s' = s.put d' vs' (ptsBefore S.offX (e + 1)) ∧ DInv P S b0 d' ∧ VStep P.op outv vs vs' ∧
      (A → ∀ v t, (vs' v).buf.val t = (vs v).buf.val t + elTrue P S L inv outv e v t))
      (fun s' _ => ¬ R ∧ ∃ d' vs', s' = s.put d' vs' (ptsBefore S.offX e) ∧ DInv P S b0 d' ∧ VStep P.op outv vs vs') := by
  unfold elementAt
  rw [M.wp_bind]
  refine M.wp_mono (coordsEl_wp h hd vs (ptsBefore S.offX e) he (fun r => (hR r).1)) ?_ ?_
  swap
  · rintro s' _ ⟨c1, rfl⟩
    exact ⟨c1, d, vs, rfl, hd, VStep.refl _ _ _⟩
  rintro s' n ⟨rfl, xe, rfl, d1, hX, hC⟩
  have hX' : A → CoordsAt P S L e xe := by
    intro a p hp' dd hdd
    rw [hX p hp' dd hdd]
    unfold PMean.point
    rw [(hA a).2]
  rw [M.wp_bind]
  refine M.wp_mono (inputsEl_wp h hp (inv := inv) he (A := A) d1 hen hX' (fun a => (hA a).1) (fun r => (hR r).2.1)) ?_ ?_
  swap
  · rintro s' _ ⟨c1, d2, rfl, c2⟩
    exact ⟨c1, d2, vs, rfl, c2, VStep.refl _ _ _⟩
  rintro s' _ ⟨d2, rfl, h2⟩
  rw [M.wp_bind]
  refine M.wp_of_eq_ok (s' := s.put d2 vs (ptsBefore S.offX e)) (a := s.put d2 vs (ptsBefore S.offX e)) rfl ?_
  rw [show (s.put d2 vs (ptsBefore S.offX e)).d = d2 from rfl, show (s.put d2 vs (ptsBefore S.offX e)).off = ptsBefore S.offX e from rfl]
  set y := P.F (S.np e) (clipAt P (S.np e) d2) with hy
  have hoff : ptsBefore S.offX e + S.np e = ptsBefore S.offX (e + 1) := (Restriction.before_succ S.offX e).symm
  by_cases hI : P.op.isId = true
  · obtain ⟨d3, e3, h3⟩ := loop_ok (n := P.op.nout) (body := directEl P (S.np e) y) (fun d => s.put d vs (ptsBefore S.offX e))
      (fun _ d => d = d2) (a := d2) rfl (fun o ho d' hd' => ⟨d', by
        unfold directEl
        simp only [M.bind_apply, getP, Out.bind_ok, hI]
        simp [M.pure_apply], hd'⟩)
    subst h3
    rw [M.wp_bind]
    refine M.wp_of_eq_ok e3 ?_
    rw [M.wp_bind]
    refine M.wp_mono (identityEl_wp h hI hp en (inv := inv) (outv := outv) he y h2 (fun r => (hR r).2.2)) ?_ ?_
    · rintro s' _ ⟨c1, vs', rfl, c2, c3⟩
      refine M.wp_of_eq_ok (s' := s.put d3 vs' (ptsBefore S.offX (e + 1))) (a := ()) ?_ ⟨⟨hC, h2.act, c1⟩, d3, vs', rfl, h2.dinv, c2, c3⟩
      rw [hoff]; rfl
    · rintro s' _ ⟨c1, vs', rfl, c2⟩
      exact ⟨c1, d3, vs', rfl, h2.dinv, c2⟩
  · have hI' : P.op.isId = false := by simpa using hI
    obtain ⟨d3, e3, h3⟩ := loop_ok (n := P.op.nout) (body := directEl P (S.np e) y) (fun d => s.put d vs (ptsBefore S.offX e))
      (fun j d => OutA P S b0 e xe y d (fun p => (range j).filter (fun o' => last P.op o' = p ∧ (P.op.out o').mode = .none))) (a := d2)
      ⟨h2.dinv, h2.xe, fun p _ hne => by simp at hne⟩
      (fun o ho d' hd' => directEl_ok h hI' he vs (ptsBefore S.offX e) ho hd')
    rw [M.wp_bind]
    refine M.wp_of_eq_ok e3 ?_
    have h4 : OutA P S b0 e xe y d3 (fun p => members P.op p 0) := by
      have : (fun p => members P.op p 0) =
          fun p => (range P.op.nout).filter (fun o' => last P.op o' = p ∧ (P.op.out o').mode = .none) := by
        funext p; unfold members; simp
      rw [this]; exact h3
    rw [M.wp_bind]
    refine M.wp_mono (outputsEl_wp h hI' hp hen he h4 (fun r => (hR r).2.2)) ?_ ?_
    · rintro s' _ ⟨c1, d4, vs', rfl, c2, c3, c4⟩
      refine M.wp_of_eq_ok (s' := s.put d4 vs' (ptsBefore S.offX (e + 1))) (a := ()) ?_ ⟨⟨hC, h2.act, c1⟩, d4, vs', rfl, c2.dinv, c3, ?_⟩
      · rw [hoff]; rfl
      intro a v t
      rw [c4]
      congr 1
      unfold elTrue
      refine sum_congr rfl (fun o ho => ?_)
      split
      · refine elemAdds_eq h (mem_range.1 ho) (hX' a) (fun x _ => ?_) t
        have : clipAt P (S.np e) d2 = S.inArr P L inv e := by
          funext i x
          unfold clipAt PMean.inArr
          by_cases hx : i < P.op.nin ∧ x < S.np e * (P.op.inp i).size
          · rw [if_pos hx, if_pos hx, h2.q a i hx.1 x hx.2]
          · rw [if_neg hx, if_neg hx]
        rw [hy, this]
        unfold PMean.outArr
        rw [if_neg hI]
      · rfl
    · rintro s' _ ⟨c1, d4, vs', rfl, c2, c3⟩
      exact ⟨c1, d4, vs', rfl, c2, c3⟩

/-! ## All elements -/

theorem apart_at {P : POper K} {inv outv : VPtr} (ha : AtApart P inv outv) {a b : Nat → LVec K} (h : VStep P.op outv a b) :
    (∀ i < P.op.nin, (P.op.inp i).mode ≠ .weight → (P.op.inp i).vec = .active →
      cont (fun v => (b v).buf.val) inv = cont (fun v => (a v).buf.val) inv) ∧
    P.coords (fun v => (b v).buf.val) = P.coords (fun v => (a v).buf.val) := by
  constructor
  · intro i hi hw hv
    match inv, ha with
    | .null, _ => rfl
    | .none, _ => rfl
    | .vec u, ha =>
      show (b u).buf.val = (a u).buf.val
      rw [h.other u (fun o ho => ha.1 i hi hw hv o ho)]
  · unfold POper.coords
    match hp : P.points with
    | none => rfl
    | some (rX, xv) =>
      show (b xv).buf.val = (a xv).buf.val
      rw [h.other xv (fun o ho => ha.2 rX xv hp o ho)]

theorem elements_wp [IsStrictOrderedRing K] {P : POper K} {S : PMean K} {b0 : Nat → PBas K} (h : AtOK P S b0) (hne : 0 < P.op.ne)
    {s : PSt K} {vs : Nat → LVec K} (hp : APre P S (fun v => (vs v).buf.val) s.base) {en : Env K} (hen : Exact en) {inv outv : VPtr}
    {d : Dyn K} (hd : DInv P S b0 d) {R : Prop} (hR : R → ElReady P inv outv vs) :
    M.wp R (M.loop P.op.ne (elementAt P en inv outv)) (s.put d vs 0) (fun s' _ => ElReady P inv outv vs ∧
      ∃ d' vs' off, s' = s.put d' vs' off ∧ DInv P S b0 d' ∧ VStep P.op outv vs vs' ∧
      (AtApart P inv outv → ∀ v t, (vs' v).buf.val t = (vs v).buf.val t + S.action P (fun v => (vs v).buf.val) inv outv v t))
      (fun s' _ => ¬ R ∧ ∃ d' vs' off, s' = s.put d' vs' off ∧ DInv P S b0 d' ∧ VStep P.op outv vs vs') := by
  refine M.wp_mono (M.wp_loop (fun j s' => (0 < j → ElReady P inv outv vs) ∧
      ∃ d' vs', s' = s.put d' vs' (ptsBefore S.offX j) ∧ DInv P S b0 d' ∧ VStep P.op outv vs vs' ∧
      (AtApart P inv outv → ∀ v t, (vs' v).buf.val t = (vs v).buf.val t +
        ∑ e ∈ range j, elTrue P S (fun v => (vs v).buf.val) inv outv e v t)) ?_ ?_) ?_ (fun _ _ hh => hh)
  · refine ⟨fun hh => absurd hh (by omega), d, vs, ?_, hd, VStep.refl _ _ _, fun _ v t => ?_⟩
    · unfold ptsBefore; rw [range_zero, sum_empty]
    · rw [range_zero, sum_empty, add_zero]
  · rintro e he s' ⟨a1, d1, vs1, rfl, a2, a3, a4⟩
    refine M.wp_mono (element_wp h hp hen (inv := inv) (outv := outv) he (vs := vs1) (A := AtApart P inv outv) a2 (fun a => apart_at a a3)
      (fun r => (ElReady.step a3).2 (hR r))) ?_ ?_
    · rintro s' _ ⟨b1, d2, vs2, rfl, b2, b3, b4⟩
      refine ⟨fun _ => (ElReady.step a3).1 b1, d2, vs2, rfl, b2, a3.trans b3, fun a v t => ?_⟩
      rw [b4 a, a4 a, sum_range_succ, add_assoc]
    · rintro s' _ ⟨b1, d2, vs2, rfl, b2, b3⟩
      exact ⟨b1, d2, vs2, _, rfl, b2, a3.trans b3⟩
  · rintro s' _ ⟨a1, d1, vs1, rfl, a2, a3, a4⟩
    exact ⟨a1 hne, d1, vs1, _, rfl, a2, a3, a4⟩

end Operator
end Verif
