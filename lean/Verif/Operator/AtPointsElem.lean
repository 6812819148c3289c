import Verif.Operator.AtPointsRstr
import Verif.Basis.PointsMore

/-!
# Inputs of one element of an operator at points (helper lemmas)
-/

set_option linter.unusedSectionVars false

namespace Verif
namespace Operator

open Finset Polynomial
open Restriction (RData Made Rstr Rep laneEnd PointsOK ptsIn ptAt ptsBefore)
open Basis (Bas EMode PBas Env Fresh Shape Exact Used pev along coord pointPos)

variable {K : Type} [Field K] [LinearOrder K]

/-- Restriction of a field. -/
def OField.r (a : OField K) : Nat := a.rid.getD 0

theorem r_same {a b : OField K} (h : a.same b = true) : a.r = b.r := by
  unfold OField.r; rw [(same_iff.1 h).2]

theorem AtField.ok {op : Oper K} {S : PMean K} {b0 : Nat → PBas K} {a : OField K} {id : Nat} {acc : Prop}
    (h : AtField op S b0 a id acc) : RstrOK op S a.r ∧ a.rid = some a.r := by
  obtain ⟨r, h1, h2⟩ := h
  have hr : a.r = r := by unfold OField.r; rw [h1]; rfl
  rw [hr]
  refine ⟨?_, h1⟩
  rcases h2 with ⟨_, h2⟩ | ⟨_, h2, _⟩
  · left; rw [h2.facts.2]; exact h2
  · exact Or.inr h2

theorem AtField.none {op : Oper K} {S : PMean K} {b0 : Nat → PBas K} {a : OField K} {id : Nat} {acc : Prop}
    (h : AtField op S b0 a id acc) (hm : a.mode = .none) : (op.rstrs a.r).rtype = .points ∧ (op.rstrs a.r).numComp = a.size := by
  obtain ⟨r, h1, h2⟩ := h
  have hr : a.r = r := by unfold OField.r; rw [h1]; rfl
  rw [hr]
  rcases h2 with ⟨_, h2⟩ | ⟨h2, _⟩
  · exact h2.facts
  · rw [hm] at h2; simp at h2

theorem AtField.basis {op : Oper K} {S : PMean K} {b0 : Nat → PBas K} {a : OField K} {id : Nat} {acc : Prop}
    (h : AtField op S b0 a id acc) (hm : isBasisMode a.mode = true) : (a.mode = .interp ∨ a.mode = .grad) ∧ OnMesh op S a.r ∧
      a.basis = some (b0 id).bas ∧ (b0 id).bas.P = (S.D a.r).es ∧
        (b0 id).bas.nc = (S.D a.r).nc ∧ a.size = (b0 id).bas.nc * (b0 id).bas.qComp a.mode ∧ (b0 id).bas.dim = S.dim ∧
        BasOK S b0 id acc := by
  obtain ⟨r, h1, h2⟩ := h
  have hr : a.r = r := by unfold OField.r; rw [h1]; rfl
  rw [hr]
  rcases h2 with ⟨h2, _⟩ | h2
  · rw [h2] at hm; simp [isBasisMode] at hm
  · exact h2

theorem AtField.notWeight {op : Oper K} {S : PMean K} {b0 : Nat → PBas K} {a : OField K} {id : Nat} {acc : Prop}
    (h : AtField op S b0 a id acc) : a.mode ≠ .weight := by
  obtain ⟨r, h1, ⟨h2, _⟩ | ⟨h2, _⟩⟩ := h
  · rw [h2]; simp
  · rcases h2 with h2 | h2 <;> rw [h2] <;> simp

/-- Data of one element. -/
structure DInv (P : POper K) (S : PMean K) (b0 : Nat → PBas K) (d : Dyn K) : Prop where
  mx : d.mx = mxOf P.op S
  xe : d.xe.len = S.dim * mxOf P.op S
  q : ∀ i < P.op.nin, (d.q i).len = mxOf P.op S * (P.op.inp i).size
  wt : ∀ i < P.op.nin, (P.op.inp i).mode = .weight → ∀ x < mxOf P.op S, (d.q i).val x = 1
  w : ∀ o < P.op.nout, (d.w o).len = lenR P.op S (mxOf P.op S) (P.op.out o).r
  eb : ∀ i < P.op.nin, (P.op.inp i).mode ≠ .weight → (d.eb i).len = lenR P.op S (mxOf P.op S) (P.op.inp i).r
  bas : ∀ id, Used (b0 id) (d.bas id)

/-- A state with other data of one element, vectors and number of points. -/
def PSt.put (s : PSt K) (d : Dyn K) (vs : Nat → LVec K) (off : Nat) : PSt K := ⟨{ s.base with vecs := vs }, d, off⟩

/-- Tables and E-vectors of the passive inputs, during an application. -/
structure APre (P : POper K) (S : PMean K) (L : Nat → Nat → K) (s : St K) : Prop where
  full : ∀ i < P.op.nin, (P.op.inp i).mode ≠ .weight → s.impl.it.full i = some (first P.op i)
  skip : ∀ i < P.op.nin, (s.impl.it.skip i = true ↔ first P.op i < i)
  ev : ∀ i < P.op.nin, isBasisMode (P.op.inp i).mode = true → s.impl.it.ev i = some (lenR P.op S (mxOf P.op S) (P.op.inp i).r)
  ofull : ∀ o < P.op.nout, s.impl.ot.full o = some (last P.op o)
  oskip : ∀ o < P.op.nout, (s.impl.ot.skip o = true ↔ o < last P.op o)
  oadd : ∀ o < P.op.nout, (s.impl.ot.add o = true ↔ ∃ i < o, (P.op.out i).same (P.op.out o) = true)
  len : ∀ i < P.op.nin, (s.impl.eIn i).len = eSizeOf P.op (P.op.inp i)
  gath : ∀ i < P.op.nin, (P.op.inp i).mode ≠ .weight → (P.op.inp i).vec ≠ .active → ∀ e < P.op.ne, ∀ x < cntR P.op S e (P.op.inp i).r,
    (s.impl.eIn (first P.op i)).val (posR P.op S e (P.op.inp i).r + x) =
      gvR P.op S e (P.op.inp i).r (cont L ((P.op.inp i).vec.ptr .null)) x

theorem readP_ok {s : PSt K} {v : Nat} (hv : (s.base.vecs v).valid = true) :
    onP (readVec (.vec v)) s = .ok s (s.base.vecs v).buf := by
  simp [onP, readVec, hv]

theorem readP_err {s : PSt K} {v : Nat} (hv : ¬ (s.base.vecs v).valid = true) : onP (readVec (.vec v)) s = .err s .backend := by
  simp [onP, readVec, hv]

/-! ## Coordinates -/

/-- `xe` holds the coordinates of the points of element `e`. -/
def CoordsAt (P : POper K) (S : PMean K) (L : Nat → Nat → K) (e : Nat) (xe : Buf K) : Prop :=
  ∀ p < S.np e, ∀ d < S.dim, xe.val (d * S.np e + p) = S.point P L e p d

theorem coordsEl_wp {P : POper K} {S : PMean K} {b0 : Nat → PBas K} (h : AtOK P S b0) {s : PSt K} {d : Dyn K} (hd : DInv P S b0 d)
    (vs : Nat → LVec K) (off : Nat) {e : Nat} (he : e < P.op.ne) {R : Prop}
    (hR : R → ∀ rX xv, P.points = some (rX, xv) → (vs xv).valid = true ∧ rX.lSize ≤ (vs xv).buf.len) :
    M.wp R (coordsEl P e) (s.put d vs off) (fun s' n => n = S.np e ∧ ∃ xe, s' = s.put { d with xe := xe } vs off ∧
      DInv P S b0 { d with xe := xe } ∧ CoordsAt P S (fun v => (vs v).buf.val) e xe ∧
      ∀ rX xv, P.points = some (rX, xv) → (vs xv).valid = true ∧ rX.lSize ≤ (vs xv).buf.len)
      (fun s' _ => ¬ R ∧ s' = s.put d vs off) := by
  obtain ⟨rX, xv, m, l, h1, h2, h3⟩ := h.points
  obtain ⟨g1, _⟩ := Restriction.createAtPoints_rep h2 h3
  unfold coordsEl
  simp only [h1, pptr]
  rw [M.wp_bind, M.wp_pure, M.wp_bind]
  by_cases hr : (vs xv).valid = true ∧ rX.lSize ≤ (vs xv).buf.len
  · obtain ⟨v', e1, e2, e3, _⟩ := Restriction.C19_element_gather h2 h3 he (u := (vs xv).buf) (v := d.xe) (g1.lsz ▸ hr.2) (by
      rw [hd.xe, Nat.mul_comm]; exact Nat.mul_le_mul_left _ (np_le he))
    refine M.wp_of_eq_ok (s' := s.put d vs off) (a := (vs xv).buf) ?_ ?_
    · exact readP_ok (s := s.put d vs off) hr.1
    refine M.wp_of_eq_ok (s' := s.put { d with xe := v' } vs off) (a := S.np e) ?_ ⟨rfl, v', rfl, ?_, ?_, ?_⟩
    · simp only [M.bind_apply, getP, Out.bind_ok, PSt.put, e1, M.lift_ok, modD, g1.num he, M.pure_apply, Int.toNat_natCast]
      rfl
    · exact { hd with xe := e2.trans hd.xe }
    · intro p hp dd hdd
      rw [show v'.val (dd * S.np e + p) = _ from e3 p hp dd hdd]
      unfold PMean.point POper.coords
      rw [h1]
    · intro rX' xv' hh
      cases hh
      exact hr
  · have hnR : ¬ R := fun r => hr (hR r rX xv h1)
    by_cases hv : (vs xv).valid = true
    · have hl : ¬ rX.lSize ≤ (vs xv).buf.len := fun hl => hr ⟨hv, hl⟩
      refine M.wp_of_eq_ok (s' := s.put d vs off) (a := (vs xv).buf) ?_ ?_
      · exact readP_ok hv
      refine M.wp_of_eq_err (s' := s.put d vs off) (a := .dimension) ?_ ⟨hnR, rfl⟩
      simp only [M.bind_apply, getP, Out.bind_ok]
      simp only [Restriction.applyAtPointsInElement]
      rw [Res.check_true g1.rtype, Res.bind_ok, g1.num he, Res.bind_ok, Res.check_false hl]
      rfl
    · exact M.wp_of_eq_err (s' := s.put d vs off) (a := .backend) (readP_err hv) ⟨hnR, rfl⟩

/-! ## Inputs -/

/-- Readiness of an active input. -/
def ActL (P : POper K) (inv : VPtr) (vs : Nat → LVec K) (i : Nat) : Prop :=
  (P.op.inp i).mode ≠ .weight → (P.op.inp i).vec = .active → ∃ v, inv = .vec v ∧ (vs v).valid = true ∧
    FitsL (P.op.rstrs (P.op.inp i).r) (vs v).buf.len

/-- State of the data after the inputs `< a` on element `e`. The values are as specified if `A`. -/
structure InA (P : POper K) (S : PMean K) (b0 : Nat → PBas K) (L : Nat → Nat → K) (inv : VPtr) (vs : Nat → LVec K) (e : Nat) (A : Prop)
    (xe : Buf K) (d : Dyn K) (a : Nat) : Prop where
  dinv : DInv P S b0 d
  xe : d.xe = xe
  act : ∀ i < a, ActL P inv vs i
  eb : A → ∀ i < a, (P.op.inp i).mode ≠ .weight → (P.op.inp i).vec = .active → ∀ x < cntR P.op S e (P.op.inp i).r,
    (d.eb (first P.op i)).val x = gvR P.op S e (P.op.inp i).r (cont L inv) x
  q : A → ∀ i < a, ∀ x < S.np e * (P.op.inp i).size, (qBuf P d i).val x = S.inVal P L inv e i x

theorem restrictElIf_wp {P : POper K} {S : PMean K} {b0 : Nat → PBas K} (h : AtOK P S b0) {L : Nat → Nat → K} {s : PSt K}
    (hp : APre P S L s.base) {inv : VPtr} {e : Nat} (he : e < P.op.ne) {A : Prop} {xe : Buf K} {d : Dyn K} {i : Nat} (hi : i < P.op.nin)
    {vs : Nat → LVec K} (hd : InA P S b0 L inv vs e A xe d i) (off : Nat)
    (hA : A → (P.op.inp i).mode ≠ .weight → (P.op.inp i).vec = .active → cont (fun v => (vs v).buf.val) inv = cont L inv) {R : Prop} (hR : R → ActL P inv vs i) :
    M.wp R (restrictElIf P inv e i) (s.put d vs off) (fun s' _ => ActL P inv vs i ∧ ∃ d', s' = s.put d' vs off ∧ InA P S b0 L inv vs e A xe d' i ∧
      d'.q = d.q ∧ (A → (P.op.inp i).mode ≠ .weight → (P.op.inp i).vec = .active → ∀ x < cntR P.op S e (P.op.inp i).r,
        (d'.eb (first P.op i)).val x = gvR P.op S e (P.op.inp i).r (cont L inv) x))
      (fun s' _ => ¬ R ∧ s' = s.put d vs off) := by
  unfold restrictElIf
  rw [M.wp_bind]
  refine M.wp_of_eq_ok (s' := s.put d vs off) (a := s.put d vs off) rfl ?_
  by_cases ha : (P.op.inp i).vec = .active
  swap
  · rw [if_neg (fun hh => ha hh.1), M.wp_pure]
    exact ⟨fun _ hh => absurd hh ha, d, rfl, hd, rfl, fun _ _ hh => absurd hh ha⟩
  have hw : (P.op.inp i).mode ≠ .weight := by
    intro hm
    have := (h.weight i hi hm).1
    rw [ha] at this; cases this
  obtain ⟨hrk, hrid⟩ := (h.inp i hi hw).ok
  by_cases hlt : first P.op i < i
  · have hsk := (hp.skip i hi).2 hlt
    rw [if_neg (by rintro ⟨_, h2⟩; rw [show (s.put d vs off).base.impl.it.skip i = true from hsk] at h2; cases h2), M.wp_pure]
    have hs := first_same P.op i
    have hact : (P.op.inp (first P.op i)).vec = .active := by rw [(same_iff.1 hs).1]; exact ha
    have hwf : (P.op.inp (first P.op i)).mode ≠ .weight := by
      intro hm
      have := (h.weight _ (by omega) hm).1
      rw [hact] at this; cases this
    refine ⟨?_, d, rfl, hd, rfl, ?_⟩
    · intro _ _
      obtain ⟨v, c1, c2, c3⟩ := hd.act (first P.op i) hlt hwf hact
      exact ⟨v, c1, c2, by rw [← r_same hs]; exact c3⟩
    · intro hA' _ _ x hx
      have := hd.eb hA' (first P.op i) hlt hwf hact x (by rw [r_same hs]; exact hx)
      rw [first_congr P.op hs, r_same hs] at this
      exact this
  · have hf : first P.op i = i := by have := first_le P.op i; omega
    have hsk : s.base.impl.it.skip i = false := by
      cases hh : s.base.impl.it.skip i
      · rfl
      · exact absurd ((hp.skip i hi).1 hh) hlt
    rw [if_pos ⟨ha, hsk⟩]
    unfold restrictEl
    rw [M.wp_bind]
    refine M.wp_of_eq_ok (s' := s.put d vs off) (a := s.put d vs off) rfl ?_
    simp only [hrid]
    rw [M.wp_bind]
    refine M.wp_of_eq_ok (s' := s.put d vs off) (a := i) ?_ ?_
    · show pptr (s.base.impl.it.full i) _ = _
      rw [hp.full i hi hw, hf]; rfl
    rw [M.wp_bind]
    by_cases hrd : ActL P inv vs i
    · obtain ⟨v, c1, c2, c3⟩ := hrd hw ha
      rw [c1]
      refine M.wp_of_eq_ok (s' := s.put d vs off) (a := (vs v).buf) (readP_ok (s := s.put d vs off) c2) ?_
      obtain ⟨b, e1, e2, e3⟩ := gatherEl_ok hrk he c3 (v := d.eb i) (hd.dinv.eb i hi hw)
      refine M.wp_of_eq_ok (s' := s.put { d with eb := Function.update d.eb i b } vs off) (a := ()) ?_ ?_
      · simp only [M.bind_apply, PSt.put, e1, M.lift_ok, Out.bind_ok, putE, modD]
      · refine ⟨c1 ▸ hrd, _, rfl, ⟨?_, hd.xe, ?_, ?_, ?_⟩, rfl, ?_⟩
        · refine { hd.dinv with eb := ?_ }
          intro j hj hwj
          show (Function.update d.eb i b j).len = _
          by_cases hji : j = i
          · subst hji; rw [Function.update_self, e2]; exact hd.dinv.eb j hj hwj
          · rw [Function.update_of_ne hji]; exact hd.dinv.eb j hj hwj
        · exact c1 ▸ hd.act
        · intro hA' j hj hwj haj x hx
          have : first P.op j ≠ i := by have := first_le P.op j; omega
          show (Function.update d.eb i b (first P.op j)).val x = _
          rw [Function.update_of_ne this]
          exact c1 ▸ hd.eb hA' j hj hwj haj x hx
        · intro hA' j hj x hx
          have : qBuf P { d with eb := Function.update d.eb i b } j = qBuf P d j := by
            unfold qBuf
            show (if _ then Function.update d.eb i b j else d.q j) = _
            rw [Function.update_of_ne (by omega)]
          rw [this]
          exact c1 ▸ hd.q hA' j hj x hx
        · intro hA' _ _ x hx
          rw [hf]
          show (Function.update d.eb i b i).val x = _
          rw [Function.update_self, e3 x hx, ← c1, ← hA hA' hw ha, c1]
          rfl
    · have hnR : ¬ R := fun r => hrd (hR r)
      match inv, hrd with
      | .null, _ => exact M.wp_of_eq_ub rfl hnR
      | .none, _ => exact M.wp_of_eq_err (s' := s.put d vs off) (a := .dimension) rfl ⟨hnR, rfl⟩
      | .vec v, hrd =>
        by_cases hv : (vs v).valid = true
        · refine M.wp_of_eq_ok (s' := s.put d vs off) (a := (vs v).buf) (readP_ok (s := s.put d vs off) hv) ?_
          have : ¬ FitsL (P.op.rstrs (P.op.inp i).r) (vs v).buf.len := fun hl => hrd (fun _ _ => ⟨v, rfl, hv, hl⟩)
          obtain ⟨c, e1⟩ := gatherEl_err hrk he (u := (vs v).buf) (v := d.eb i) this
          refine M.wp_of_eq_err (s' := s.put d vs off) (a := c) ?_ ⟨hnR, rfl⟩
          simp only [M.bind_apply, PSt.put, e1, M.lift_err, Out.bind_err]
        · exact M.wp_of_eq_err (s' := s.put d vs off) (a := .backend) (readP_err (s := s.put d vs off) hv) ⟨hnR, rfl⟩

theorem mod_form {n : Nat} {b c : Nat} {x : Nat} (hx : x < n * (b * c)) :
    x % n < n ∧ x / n % b < b ∧ x / n / b < c ∧ pointPos b n (x / n / b) (x / n % b) (x % n) = x := by
  have hn : 0 < n := Nat.pos_of_ne_zero (by rintro rfl; simp at hx)
  have hb : 0 < b := Nat.pos_of_ne_zero (by rintro rfl; simp at hx)
  refine ⟨Nat.mod_lt _ hn, Nat.mod_lt _ hb, ?_, ?_⟩
  · exact Nat.div_lt_of_lt_mul (Nat.div_lt_of_lt_mul hx)
  · unfold pointPos
    rw [Nat.div_add_mod', Nat.div_add_mod']

theorem basisEl_ok [IsStrictOrderedRing K] {P : POper K} {S : PMean K} {b0 : Nat → PBas K} (h : AtOK P S b0) {L : Nat → Nat → K} {s : PSt K}
    {inv : VPtr} {e : Nat} (he : e < P.op.ne) {A : Prop} {xe : Buf K} {d : Dyn K} {i : Nat} (hi : i < P.op.nin) {vs : Nat → LVec K}
    (hd : InA P S b0 L inv vs e A xe d i) (off : Nat) {en : Env K} (hen : Exact en) (hm : isBasisMode (P.op.inp i).mode = true)
    (hX : A → CoordsAt P S L e xe) {u : Buf K} (hu : u.len = lenR P.op S (mxOf P.op S) (P.op.inp i).r)
    (hv : A → ∀ x < cntR P.op S e (P.op.inp i).r, u.val x = gvR P.op S e (P.op.inp i).r (cont L ((P.op.inp i).vec.ptr inv)) x)
    (hact : ActL P inv vs i)
    (heb : A → (P.op.inp i).mode ≠ .weight → (P.op.inp i).vec = .active → ∀ x < cntR P.op S e (P.op.inp i).r,
        (d.eb (first P.op i)).val x = gvR P.op S e (P.op.inp i).r (cont L inv) x) :
    ∃ d', basisEl P en (S.np e) i u (s.put d vs off) = .ok (s.put d' vs off) () ∧ InA P S b0 L inv vs e A xe d' (i + 1) := by
  have hw := weight_not_basis hm
  have hnn : (P.op.inp i).mode ≠ .none := by intro hh; rw [hh] at hm; simp [isBasisMode] at hm
  obtain ⟨f1, f2, f3, f4, f5, f6, f7, i1, g1, w, q, f8, f9, _⟩ := (h.inp i hi hw).basis hm
  obtain ⟨k1, _⟩ := f2.facts
  set b := (b0 (P.inB i)).bas with hb
  have hlen : lenR P.op S (mxOf P.op S) (P.op.inp i).r = b.nc * b.P := by
    unfold lenR; rw [if_neg k1, f4, f5, Nat.mul_comm]
  have hcnt : cntR P.op S e (P.op.inp i).r = b.nc * b.P := by
    unfold cntR; rw [if_neg k1, f4, f5, Nat.mul_comm]
  have hql := hd.dinv.q i hi
  have hle : S.np e * (P.op.inp i).size ≤ mxOf P.op S * (P.op.inp i).size := Nat.mul_le_mul_right _ (np_le he)
  obtain ⟨s', v', e1, e2, e3, _⟩ := Basis.C25_evaluates_partial f8 (hd.dinv.bas (P.inB i)) f9 hen f1 (np := ⟨1, fun _ => S.np e⟩) (by show 0 < 1; omega)
    (x := d.xe) (u := u) (v := d.q i)
    (by show S.np e * b.dim ≤ _; rw [hd.dinv.xe, f7, Nat.mul_comm]; exact Nat.mul_le_mul_left _ (np_le he))
    (by rw [hu, hlen]) (by show S.np e * b.nc * b.qComp _ ≤ _; rw [hql, Nat.mul_assoc, ← f6]; exact hle)
  refine ⟨{ d with bas := Function.update d.bas (P.inB i) s', q := Function.update d.q i v' }, ?_, ⟨?_, hd.xe, ?_, ?_, ?_⟩⟩
  · unfold basisEl
    simp only [M.bind_apply, getP, Out.bind_ok, PSt.put, onBas, e1, putQ, modD]
  · refine { hd.dinv with q := ?_, wt := ?_, bas := ?_ }
    · intro j hj
      show (Function.update d.q i v' j).len = _
      by_cases hji : j = i
      · subst hji; rw [Function.update_self, e2, hql]
      · rw [Function.update_of_ne hji]; exact hd.dinv.q j hj
    · intro j hj hwj x hx
      show (Function.update d.q i v' j).val x = _
      have : j ≠ i := fun hh => hw (hh ▸ hwj)
      rw [Function.update_of_ne this]; exact hd.dinv.wt j hj hwj x hx
    · intro id
      show Used _ (Function.update d.bas (P.inB i) s' id)
      by_cases hid : id = P.inB i
      · subst hid; rw [Function.update_self]; exact Used.apply (hd.dinv.bas _) hen (Or.inl ⟨v', e1⟩)
      · rw [Function.update_of_ne hid]; exact hd.dinv.bas id
  · intro j hj
    by_cases hji : j = i
    · rw [hji]; exact hact
    · exact hd.act j (by omega)
  · intro hA j hj
    by_cases hji : j = i
    · rw [hji]; exact heb hA
    · exact hd.eb hA j (by omega)
  · intro hA j hj x hx
    by_cases hji : j = i
    · subst hji
      have : qBuf P { d with bas := Function.update d.bas (P.inB j) s', q := Function.update d.q j v' } j = v' := by
        unfold qBuf
        rw [if_neg (fun hh => hnn hh.1)]
        exact Function.update_self _ _ _
      rw [this]
      rw [f6] at hx
      obtain ⟨m1, m2, m3, m4⟩ := mod_form hx
      have h5 := e3 _ m3 _ m2 _ m1
      rw [show (⟨1, fun _ => S.np e⟩ : Buf Nat).val 0 = S.np e from rfl, m4] at h5
      rw [h5]
      have hin : S.inVal P L inv e j x = ∑ m ∈ range b.P, (S.D (P.op.inp j).r).row (cont L ((P.op.inp j).vec.ptr inv)) e (x / S.np e % b.nc) m *
          shapeVal b (S.phi (P.inB j)) (P.op.inp j).mode (S.point P L e (x % S.np e)) (x / S.np e / b.nc) m := by
        unfold PMean.inVal
        rcases f1 with f1 | f1 <;> simp only [f1, f3] <;> rfl
      rw [hin]
      refine sum_congr rfl (fun m hm' => ?_)
      rw [mem_range] at hm'
      have hlt : x / S.np e % b.nc * b.P + m < b.nc * b.P := enc_lt m2 hm'
      rw [hv hA _ (by rw [hcnt]; exact hlt)]
      have hg : gvR P.op S e (P.op.inp j).r (cont L ((P.op.inp j).vec.ptr inv)) (x / S.np e % b.nc * b.P + m) =
          (S.D (P.op.inp j).r).row (cont L ((P.op.inp j).vec.ptr inv)) e (x / S.np e % b.nc) m := by
        unfold gvR
        rw [if_neg k1, ← f4, div_enc hm', mod_enc hm']
      rw [hg]
      congr 1
      unfold Basis.shapeAt shapeVal
      refine prod_congr rfl (fun dd hdd => ?_)
      rw [mem_range] at hdd
      rw [hd.xe, hX hA _ m1 dd (by rw [← f7]; exact hdd)]
    · have : qBuf P { d with bas := Function.update d.bas (P.inB i) s', q := Function.update d.q i v' } j = qBuf P d j := by
        unfold qBuf
        show (if _ then d.eb j else Function.update d.q i v' j) = _
        rw [Function.update_of_ne hji]
      rw [this]
      exact hd.q hA j (by omega) x hx

theorem evalEl_ok [IsStrictOrderedRing K] {P : POper K} {S : PMean K} {b0 : Nat → PBas K} (h : AtOK P S b0) {L : Nat → Nat → K} {s : PSt K}
    (hp : APre P S L s.base) {inv : VPtr} {e : Nat} (he : e < P.op.ne) {A : Prop} {xe : Buf K} {d : Dyn K} {i : Nat} (hi : i < P.op.nin)
    {vs : Nat → LVec K} (hd : InA P S b0 L inv vs e A xe d i) {en : Env K} (hen : Exact en) (hX : A → CoordsAt P S L e xe)
    (hact : ActL P inv vs i)
    (heb : A → (P.op.inp i).mode ≠ .weight → (P.op.inp i).vec = .active → ∀ x < cntR P.op S e (P.op.inp i).r,
        (d.eb (first P.op i)).val x = gvR P.op S e (P.op.inp i).r (cont L inv) x) :
    ∃ d', evalEl P en e (S.np e) i (s.put d vs (ptsBefore S.offX e)) = .ok (s.put d' vs (ptsBefore S.offX e)) () ∧
      InA P S b0 L inv vs e A xe d' (i + 1) := by
  have hact' : ∀ j < i + 1, ActL P inv vs j := by
    intro j hj
    by_cases hji : j = i
    · rw [hji]; exact hact
    · exact hd.act j (by omega)
  have heb' : A → ∀ j < i + 1, (P.op.inp j).mode ≠ .weight → (P.op.inp j).vec = .active → ∀ x < cntR P.op S e (P.op.inp j).r,
      (d.eb (first P.op j)).val x = gvR P.op S e (P.op.inp j).r (cont L inv) x := by
    intro hA j hj
    by_cases hji : j = i
    · rw [hji]; exact heb hA
    · exact hd.eb hA j (by omega)
  have hfl : first P.op i < P.op.nin := by have := first_le P.op i; omega
  unfold evalEl
  rcases mode_cases (P.op.inp i).mode with hm | hm | hm
  · have hnn : (P.op.inp i).mode ≠ .none := by rw [hm]; simp
    rw [if_neg hnn, if_neg (by rw [hm]; simp [isBasisMode])]
    refine ⟨d, rfl, hd.dinv, hd.xe, hact', heb', fun hA j hj x hx => ?_⟩
    by_cases hji : j = i
    · subst hji
      unfold qBuf
      rw [if_neg (fun hh => hnn hh.1), hd.dinv.wt j hi hm x (by
        rw [(h.weight j hi hm).2.2.1, Nat.mul_one] at hx
        exact lt_of_lt_of_le hx (np_le he))]
      unfold PMean.inVal
      simp only [hm]
    · exact hd.q hA j (by omega) x hx
  · have hw : (P.op.inp i).mode ≠ .weight := by rw [hm]; simp
    obtain ⟨k1, k2⟩ := (h.inp i hi hw).none hm
    obtain ⟨hrk, hrid⟩ := (h.inp i hi hw).ok
    have hcnt : cntR P.op S e (P.op.inp i).r = S.np e * (P.op.inp i).size := by unfold cntR; rw [if_pos k1, k2]
    have hin : ∀ x, S.inVal P L inv e i x = gvR P.op S e (P.op.inp i).r (cont L ((P.op.inp i).vec.ptr inv)) x := by
      intro x
      unfold PMean.inVal gvR
      simp only [hm]
      rw [if_pos k1, k2]
      rfl
    rw [if_pos hm]
    by_cases ha : (P.op.inp i).vec = .active
    · rw [if_pos ha]
      have hf : first P.op i = i := by
        by_contra hne
        have hle := first_le P.op i
        exact (h.shareIn _ i (by omega) hi (first_same P.op i)).2 hm ha
      refine ⟨d, rfl, hd.dinv, hd.xe, hact', heb', fun hA j hj x hx => ?_⟩
      by_cases hji : j = i
      · subst hji
        unfold qBuf
        have := heb hA hw ha x (by rw [hcnt]; exact hx)
        rw [hf] at this
        rw [if_pos ⟨hm, ha⟩, this, hin, ha]
        rfl
      · exact hd.q hA j (by omega) x hx
    · rw [if_neg ha]
      have hl : ptsBefore S.offX e * (P.op.inp i).size + (d.q i).len ≤ (s.base.impl.eIn (first P.op i)).len := by
        rw [hp.len _ hfl, eSizeOf_same (first_same P.op i), hd.dinv.q i hi]
        have := pos_le hrk he
        unfold posR lenR at this
        rw [if_pos k1, if_pos k1, k2] at this
        have h2 : eSizeOf P.op (P.op.inp i) = (P.op.rstrs (P.op.inp i).r).eSize := by unfold eSizeOf; rw [hrid]
        rw [h2]; exact this
      have hsl : slice (s.base.impl.eIn (first P.op i)) (ptsBefore S.offX e * (P.op.inp i).size) (d.q i).len =
          .ok ⟨(d.q i).len, fun x => (s.base.impl.eIn (first P.op i)).val (ptsBefore S.offX e * (P.op.inp i).size + x)⟩ := by
        unfold slice; rw [if_pos hl]
      refine ⟨{ d with q := Function.update d.q i ⟨(d.q i).len, fun x => (s.base.impl.eIn (first P.op i)).val (ptsBefore S.offX e * (P.op.inp i).size + x)⟩ },
        ?_, ⟨?_, hd.xe, hact', heb', ?_⟩⟩
      · unfold passiveEl
        simp only [M.bind_apply, getP, Out.bind_ok, PSt.put, hp.full i hi hw, pptr, M.pure_apply, hsl, M.lift_ok, putQ, modD]
      · refine { hd.dinv with q := ?_, wt := ?_ }
        · intro j hj
          show (Function.update d.q i _ j).len = _
          by_cases hji : j = i
          · subst hji; rw [Function.update_self]; exact hd.dinv.q j hj
          · rw [Function.update_of_ne hji]; exact hd.dinv.q j hj
        · intro j hj hwj x hx
          show (Function.update d.q i _ j).val x = _
          have : j ≠ i := fun hh => hw (hh ▸ hwj)
          rw [Function.update_of_ne this]; exact hd.dinv.wt j hj hwj x hx
      · intro hA j hj x hx
        by_cases hji : j = i
        · subst hji
          unfold qBuf
          rw [if_neg (fun hh => ha hh.2)]
          show (Function.update d.q j _ j).val x = _
          rw [Function.update_self, hin]
          have := hp.gath j hi hw ha e he x (by rw [hcnt]; exact hx)
          unfold posR at this
          rw [if_pos k1, k2] at this
          show (s.base.impl.eIn (first P.op j)).val _ = _
          rw [this]
          congr 2
          cases hvv : (P.op.inp j).vec
          · exact absurd hvv ha
          · rfl
          · rfl
        · have : qBuf P { d with q := Function.update d.q i ⟨(d.q i).len, fun x => (s.base.impl.eIn (first P.op i)).val (ptsBefore S.offX e * (P.op.inp i).size + x)⟩ } j = qBuf P d j := by
            unfold qBuf
            show (if _ then d.eb j else Function.update d.q i _ j) = _
            rw [Function.update_of_ne hji]
          rw [this]
          exact hd.q hA j (by omega) x hx
  · have hw := weight_not_basis hm
    have hnn : (P.op.inp i).mode ≠ .none := by intro hh; rw [hh] at hm; simp [isBasisMode] at hm
    rw [if_neg hnn, if_pos hm]
    obtain ⟨hrk, hrid⟩ := (h.inp i hi hw).ok
    by_cases ha : (P.op.inp i).vec = .active
    · rw [if_pos ha]
      have hw1 : (P.op.inp (first P.op i)).mode ≠ .weight := by
        intro hh
        have := (h.weight _ hfl hh).1
        rw [(same_iff.1 (first_same P.op i)).1, ha] at this; cases this
      have hl : (d.eb (first P.op i)).len = lenR P.op S (mxOf P.op S) (P.op.inp i).r := by
        rw [hd.dinv.eb _ hfl hw1, r_same (first_same P.op i)]
      obtain ⟨d', e1, h1⟩ := basisEl_ok h (s := s) he hi hd (ptsBefore S.offX e) hen hm hX hl
        (fun hA x hx => by rw [heb hA hw ha x hx, ha]; rfl) hact heb
      refine ⟨d', ?_, h1⟩
      unfold activeBasisEl
      simp only [M.bind_apply, getP, Out.bind_ok]
      have : (s.put d vs (ptsBefore S.offX e)).base.impl.it.full i = some (first P.op i) := hp.full i hi hw
      simp only [this, pptr, M.pure_apply, Out.bind_ok]
      exact e1
    · rw [if_neg ha]
      obtain ⟨f1, f2, f3, f4, f5, f6, f7, _⟩ := (h.inp i hi hw).basis hm
      obtain ⟨k1, k2, k3, k4, k5⟩ := f2.facts
      have hpos : e * elemSizeOf P.op (P.op.inp i) * (b0 (P.inB i)).bas.nc = posR P.op S e (P.op.inp i).r := by
        unfold posR elemSizeOf
        rw [if_neg k1, hrid, f5]
        simp only
        rw [k2.es, Nat.mul_assoc]
      have hl : posR P.op S e (P.op.inp i).r + lenR P.op S (mxOf P.op S) (P.op.inp i).r ≤ (s.base.impl.eIn (first P.op i)).len := by
        rw [hp.len _ hfl, eSizeOf_same (first_same P.op i)]
        have h2 : eSizeOf P.op (P.op.inp i) = (P.op.rstrs (P.op.inp i).r).eSize := by unfold eSizeOf; rw [hrid]
        rw [h2]; exact pos_le hrk he
      have hsl : slice (s.base.impl.eIn (first P.op i)) (posR P.op S e (P.op.inp i).r) (lenR P.op S (mxOf P.op S) (P.op.inp i).r) =
          .ok ⟨lenR P.op S (mxOf P.op S) (P.op.inp i).r, fun x => (s.base.impl.eIn (first P.op i)).val (posR P.op S e (P.op.inp i).r + x)⟩ := by
        unfold slice; rw [if_pos hl]
      obtain ⟨d', e1, h1⟩ := basisEl_ok h (s := s) he hi hd (ptsBefore S.offX e) hen hm hX
        (u := ⟨lenR P.op S (mxOf P.op S) (P.op.inp i).r, fun x => (s.base.impl.eIn (first P.op i)).val (posR P.op S e (P.op.inp i).r + x)⟩) rfl
        (fun hA x hx => by
          show (s.base.impl.eIn (first P.op i)).val _ = _
          rw [hp.gath i hi hw ha e he x hx]
          congr 2
          cases hvv : (P.op.inp i).vec
          · exact absurd hvv ha
          · rfl
          · rfl) hact heb
      refine ⟨d', ?_, h1⟩
      unfold passiveBasisEl
      simp only [M.bind_apply, getP, Out.bind_ok]
      have h3 : (s.put d vs (ptsBefore S.offX e)).base.impl.it.full i = some (first P.op i) := hp.full i hi hw
      have h4 : (s.put d vs (ptsBefore S.offX e)).base.impl.it.ev i = some _ := hp.ev i hi hm
      have h5 : (s.put d vs (ptsBefore S.offX e)).base.impl.eIn = s.base.impl.eIn := rfl
      simp only [h3, h4, h5, f3, pptr, M.pure_apply, Out.bind_ok, hpos, hsl, M.lift_ok]
      exact e1

/-- All inputs on one element. -/
theorem inputsEl_wp [IsStrictOrderedRing K] {P : POper K} {S : PMean K} {b0 : Nat → PBas K} (h : AtOK P S b0) {L : Nat → Nat → K} {s : PSt K}
    (hp : APre P S L s.base) {inv : VPtr} {e : Nat} (he : e < P.op.ne) {A : Prop} {d : Dyn K} (hd : DInv P S b0 d)
    {vs : Nat → LVec K} {en : Env K} (hen : Exact en) (hX : A → CoordsAt P S L e d.xe)
    (hA : A → ∀ i < P.op.nin, (P.op.inp i).mode ≠ .weight → (P.op.inp i).vec = .active → cont (fun v => (vs v).buf.val) inv = cont L inv)
    {R : Prop} (hR : R → ∀ i < P.op.nin, ActL P inv vs i) :
    M.wp R (M.loop P.op.nin (inputEl P en inv e (S.np e))) (s.put d vs (ptsBefore S.offX e))
      (fun s' _ => ∃ d', s' = s.put d' vs (ptsBefore S.offX e) ∧ InA P S b0 L inv vs e A d.xe d' P.op.nin)
      (fun s' _ => ¬ R ∧ ∃ d', s' = s.put d' vs (ptsBefore S.offX e) ∧ DInv P S b0 d') := by
  refine M.wp_loop (fun a s' => ∃ d', s' = s.put d' vs (ptsBefore S.offX e) ∧ InA P S b0 L inv vs e A d.xe d' a) ?_ ?_
  · exact ⟨d, rfl, hd, rfl, fun i hi => absurd hi (by omega), fun _ i hi => absurd hi (by omega), fun _ i hi => absurd hi (by omega)⟩
  · rintro i hi s' ⟨d1, rfl, h1⟩
    unfold inputEl
    rw [M.wp_bind]
    refine M.wp_mono (restrictElIf_wp h hp he hi h1 (ptsBefore S.offX e) (fun a => hA a i hi) (fun r => hR r i hi)) ?_ ?_
    · rintro s' _ ⟨c1, d2, rfl, c2, _, c4⟩
      obtain ⟨d3, e3, h3⟩ := evalEl_ok h hp he hi c2 hen hX c1 c4
      exact M.wp_of_eq_ok e3 ⟨d3, rfl, h3⟩
    · rintro s' _ ⟨c1, rfl⟩
      exact ⟨c1, d1, rfl, h1.dinv⟩

end Operator
end Verif
