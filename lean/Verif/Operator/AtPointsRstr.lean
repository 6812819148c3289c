import Verif.Operator.AtPointsSpec
import Verif.Operator.OptOut
import Verif.Restriction.PointsProps

/-!
# Restrictions of operators at points (helper lemmas)

Restrictions at points and on the mesh behind one interface: positions and values of one element.
-/

set_option linter.unusedSectionVars false

namespace Verif
namespace Operator

open Finset
open Restriction (RData Made Rstr Rep laneEnd PointsOK ptsIn ptAt ptsBefore)
open Basis (Bas EMode PBas Env)

variable {K : Type} [Field K] [LinearOrder K]

/-- A restriction at points or on the mesh. -/
def RstrOK (op : Oper K) (S : PMean K) (r : Nat) : Prop := OnPts op S r (op.rstrs r).numComp ∨ OnMesh op S r

/-- Number of values of element `e`. -/
def cntR (op : Oper K) (S : PMean K) (e r : Nat) : Nat :=
  if (op.rstrs r).rtype = .points then S.np e * (op.rstrs r).numComp else (S.D r).es * (S.D r).nc

/-- Length of the E-vector of one element. -/
def lenR (op : Oper K) (S : PMean K) (mx r : Nat) : Nat :=
  if (op.rstrs r).rtype = .points then mx * (op.rstrs r).numComp else (S.D r).es * (S.D r).nc

/-- Position of element `e` in the E-vector of all elements. -/
def posR (op : Oper K) (S : PMean K) (e r : Nat) : Nat :=
  if (op.rstrs r).rtype = .points then ptsBefore S.offX e * (op.rstrs r).numComp else e * ((S.D r).es * (S.D r).nc)

/-- Values of element `e`. -/
def gvR (op : Oper K) (S : PMean K) (e r : Nat) (u : Nat → K) (x : Nat) : K :=
  if (op.rstrs r).rtype = .points then u (ptAt (S.offs r) e (x % S.np e) * (op.rstrs r).numComp + x / S.np e)
  else (S.D r).row u e (x / (S.D r).es) (x % (S.D r).es)

/-- What element `e` adds. -/
def scR (op : Oper K) (S : PMean K) (e r : Nat) (w : Nat → K) (t : Nat) : K :=
  if (op.rstrs r).rtype = .points then ∑ p ∈ range (S.np e), ∑ j ∈ range (op.rstrs r).numComp,
    if t = ptAt (S.offs r) e p * (op.rstrs r).numComp + j then w (j * S.np e + p) else 0
  else (S.D r).elemScatter (fun k n => w (k * (S.D r).es + n)) e t

theorem OnPts.facts {op : Oper K} {S : PMean K} {r nc : Nat} (h : OnPts op S r nc) :
    (op.rstrs r).rtype = .points ∧ (op.rstrs r).numComp = nc := by
  obtain ⟨m, l, h1, h2, _⟩ := h
  obtain ⟨h3, _⟩ := Restriction.createAtPoints_rep h1 h2
  exact ⟨h3.rtype, h3.hnc⟩

theorem OnMesh.facts {op : Oper K} {S : PMean K} {r : Nat} (h : OnMesh op S r) :
    (op.rstrs r).rtype ≠ .points ∧ Rep (op.rstrs r) .plain (S.D r) ∧ (op.rstrs r).blockSize = 1 ∧ (op.rstrs r).numBlock = op.ne ∧
    (op.rstrs r).eSize = op.ne * ((S.D r).es * (S.D r).nc) := by
  obtain ⟨l, h1, h2⟩ := h
  obtain ⟨h3, h4, _⟩ := h1.rep
  have hb : (op.rstrs r).numBlock = op.ne := by rw [h3.nb, h4, h2, Nat.div_one]; omega
  refine ⟨h3.cov.notPoints, h3, h4, hb, ?_⟩
  rw [h3.esz, hb, h4]; ring

theorem maxPts_congr {a b : Buf Int} {n : Nat} (h : ∀ e < n, ptsIn a e = ptsIn b e) :
    Restriction.maxPts a n = Restriction.maxPts b n ∧ ptsBefore a n = ptsBefore b n := by
  induction n with
  | zero => exact ⟨rfl, rfl⟩
  | succ n ih =>
    obtain ⟨h1, h2⟩ := ih (fun e he => h e (by omega))
    refine ⟨?_, ?_⟩
    · simp only [Restriction.maxPts]; rw [h1, h n (by omega)]
    · rw [Restriction.before_succ, Restriction.before_succ, h2, h n (by omega)]

/-- The largest number of points. -/
def mxOf (op : Oper K) (S : PMean K) : Nat := Restriction.maxPts S.offX op.ne

theorem np_le {op : Oper K} {S : PMean K} {e : Nat} (he : e < op.ne) : S.np e ≤ mxOf op S := Restriction.le_maxPts _ he

theorem cnt_le {op : Oper K} {S : PMean K} {e : Nat} (he : e < op.ne) (r : Nat) : cntR op S e r ≤ lenR op S (mxOf op S) r := by
  unfold cntR lenR
  split
  · exact Nat.mul_le_mul_right _ (np_le he)
  · exact le_rfl

theorem pos_le {op : Oper K} {S : PMean K} {r : Nat} (h : RstrOK op S r) {e : Nat} (he : e < op.ne) :
    posR op S e r + lenR op S (mxOf op S) r ≤ (op.rstrs r).eSize := by
  rcases h with h | h
  · obtain ⟨f1, _⟩ := h.facts
    obtain ⟨m, l, h1, h2, h3⟩ := h
    obtain ⟨_, _, h4⟩ := Restriction.createAtPoints_rep h1 h2
    unfold posR lenR
    rw [if_pos f1, if_pos f1, h4, ← Nat.add_mul]
    refine Nat.mul_le_mul_right _ ?_
    have c1 := maxPts_congr h3
    have hl := h3 (op.ne - 1) (by omega)
    have hb := Restriction.before_succ (S.offs r) (op.ne - 1)
    rw [show op.ne - 1 + 1 = op.ne by omega] at hb
    have hmono := Restriction.before_mono (S.offs r) (a := e) (b := op.ne - 1) (by omega)
    have c2 := (maxPts_congr (a := S.offs r) (b := S.offX) (n := e) (fun e' he' => h3 e' (by omega))).2
    have hle := Restriction.le_maxPts (S.offs r) (e := op.ne - 1) (B := op.ne) (by omega)
    unfold mxOf
    have c1' := c1.1
    omega
  · obtain ⟨f1, _, _, _, f2⟩ := h.facts
    unfold posR lenR
    rw [if_neg f1, if_neg f1, f2]
    have := Nat.mul_le_mul_right ((S.D r).es * (S.D r).nc) (show e + 1 ≤ op.ne by omega)
    rw [Nat.add_mul, Nat.one_mul] at this
    exact this

theorem gather_pts {op : Oper K} {S : PMean K} {r : Nat} (f1 : (op.rstrs r).rtype = .points) {e : Nat} {u : Nat → K} {b : Nat → K}
    {nc : Nat} (hnc : (op.rstrs r).numComp = nc)
    (hv : ∀ i < S.np e, ∀ j < nc, b (j * S.np e + i) = u (ptAt (S.offs r) e i * nc + j)) :
    ∀ x < cntR op S e r, b x = gvR op S e r u x := by
  intro x hx
  unfold cntR at hx
  unfold gvR
  rw [if_pos f1] at hx ⊢
  rw [hnc] at hx ⊢
  have hn : 0 < S.np e := Nat.pos_of_ne_zero (by rintro h0; rw [h0] at hx; simp at hx)
  have := hv (x % S.np e) (Nat.mod_lt _ hn) (x / S.np e) (Nat.div_lt_of_lt_mul hx)
  rw [Nat.div_add_mod'] at this
  exact this

theorem gather_mesh {op : Oper K} {S : PMean K} {r : Nat} (f1 : (op.rstrs r).rtype ≠ .points) {e : Nat} {u : Nat → K} {b : Nat → K}
    (hv : ∀ k < (S.D r).nc, ∀ n < (S.D r).es, b (k * (S.D r).es + n) = (S.D r).row u e k n) :
    ∀ x < cntR op S e r, b x = gvR op S e r u x := by
  intro x hx
  unfold cntR at hx
  unfold gvR
  rw [if_neg f1] at hx ⊢
  have hn : 0 < (S.D r).es := Nat.pos_of_ne_zero (by rintro h0; rw [h0] at hx; simp at hx)
  have := hv (x / (S.D r).es) (Nat.div_lt_of_lt_mul hx) (x % (S.D r).es) (Nat.mod_lt _ hn)
  rw [Nat.div_add_mod'] at this
  exact this

theorem gatherEl_ok {op : Oper K} {S : PMean K} {r : Nat} (h : RstrOK op S r) {e : Nat} (he : e < op.ne) {u v : Buf K}
    (hu : FitsL (op.rstrs r) u.len) (hv : v.len = lenR op S (mxOf op S) r) :
    ∃ v', gatherEl (op.rstrs r) e u v = .ok v' ∧ v'.len = v.len ∧ ∀ x < cntR op S e r, v'.val x = gvR op S e r u.val x := by
  unfold gatherEl
  rcases h with h | h
  · obtain ⟨f1, f2⟩ := h.facts
    obtain ⟨m, l, h1, h2, h3⟩ := h
    obtain ⟨g1, _⟩ := Restriction.createAtPoints_rep h1 h2
    have hp := h3 e he
    obtain ⟨v', e1, e2, e3, _⟩ := Restriction.C19_element_gather h1 h2 he (u := u) (v := v) (g1.lsz ▸ hu.1) (by
      rw [hp, hv]; unfold lenR; rw [if_pos f1]; exact Nat.mul_le_mul_right _ (np_le he))
    rw [if_pos f1]
    rw [hp] at e3
    exact ⟨v', e1, e2, gather_pts f1 rfl e3⟩
  · obtain ⟨f1, f2, f3, f4, f5⟩ := h.facts
    obtain ⟨v', e1, e2, e3⟩ := f2.block_nt (b := e) (by omega) (u := u) (v := v) (hu.2 f1) (by
      rw [hv, f3]; unfold lenR; rw [if_neg f1, Nat.one_mul])
    rw [if_neg f1]
    refine ⟨v', e1, e2, gather_mesh f1 ?_⟩
    intro k hk n hn
    have := e3 k hk n hn 0 (by omega)
    obtain ⟨l, _, h2⟩ := h
    rw [f3, h2, Nat.mul_one, Nat.add_zero, Nat.min_eq_left (by omega)] at this
    rw [← this]
    congr 1
    unfold eIdx
    simp

theorem gatherEl_err {op : Oper K} {S : PMean K} {r : Nat} (h : RstrOK op S r) {e : Nat} (he : e < op.ne) {u v : Buf K}
    (hu : ¬ FitsL (op.rstrs r) u.len) : ∃ c, gatherEl (op.rstrs r) e u v = .err c := by
  unfold gatherEl
  rcases h with h | h
  · obtain ⟨f1, f2⟩ := h.facts
    obtain ⟨m, l, h1, h2, h3⟩ := h
    obtain ⟨g1, _⟩ := Restriction.createAtPoints_rep h1 h2
    rw [if_pos f1]
    simp only [Restriction.applyAtPointsInElement]
    rw [Res.check_true f1, Res.bind_ok, g1.num he, Res.bind_ok, Res.check_false (fun hl => hu ⟨hl, fun hh => absurd f1 hh⟩)]
    exact ⟨_, rfl⟩
  · obtain ⟨f1, _⟩ := h.facts
    rw [if_neg f1]
    exact ⟨_, block_long (fun hl => hu ⟨hl.le, fun _ => hl⟩)⟩

theorem full_ok {op : Oper K} {S : PMean K} {r : Nat} (h : RstrOK op S r) {u v : Buf K}
    (hu : (op.rstrs r).lSize ≤ u.len) (hv : v.len = (op.rstrs r).eSize) :
    ∃ v', Restriction.apply (op.rstrs r) .plain .noTranspose u v = .ok v' ∧ v'.len = v.len ∧
      ∀ e < op.ne, ∀ x < cntR op S e r, v'.val (posR op S e r + x) = gvR op S e r u.val x := by
  rcases h with h | h
  · obtain ⟨f1, f2⟩ := h.facts
    obtain ⟨m, l, h1, h2, h3⟩ := h
    obtain ⟨g1, _⟩ := Restriction.createAtPoints_rep h1 h2
    obtain ⟨v', e1, e2, e3⟩ := Restriction.C19_gather h1 h2 .plain (u := u) (v := v) (g1.lsz ▸ hu) (by omega)
    refine ⟨v', e1, e2, fun e he => ?_⟩
    have c2 := (maxPts_congr (a := S.offs r) (b := S.offX) (n := e) (fun e' he' => h3 e' (by omega))).2
    have e4 := e3 e he
    rw [h3 e he, c2] at e4
    unfold posR
    rw [if_pos f1]
    exact gather_pts (b := fun x => v'.val (ptsBefore S.offX e * (op.rstrs r).numComp + x)) f1 rfl e4
  · obtain ⟨f1, f2, f3, f4, f5⟩ := h.facts
    obtain ⟨v', e1, e2, e3, _⟩ := f2.apply_nt (u := u) (v := v) hu (by omega)
    refine ⟨v', e1, e2, fun e he => ?_⟩
    unfold posR
    rw [if_neg f1]
    refine gather_mesh (b := fun x => v'.val (e * ((S.D r).es * (S.D r).nc) + x)) f1 ?_
    intro k hk n hn
    obtain ⟨l, _, h2⟩ := h
    have := e3 e (by omega) k hk n hn
    rw [f3, Restriction.ePos_one] at this
    rw [← this]
    show v'.val _ = v'.val _
    congr 1
    ring

theorem addEl_ok {op : Oper K} {S : PMean K} {r : Nat} (h : RstrOK op S r) {e : Nat} (he : e < op.ne) {u v : Buf K}
    (hv : FitsL (op.rstrs r) v.len) (hu : u.len = lenR op S (mxOf op S) r ∨ ((op.rstrs r).rtype = .points ∧ cntR op S e r ≤ u.len)) :
    addEl (op.rstrs r) e u v = .ok ⟨v.len, fun t => v.val t + scR op S e r u.val t⟩ := by
  unfold addEl scR
  rcases h with h | h
  · obtain ⟨f1, f2⟩ := h.facts
    obtain ⟨m, l, h1, h2, h3⟩ := h
    obtain ⟨g1, _⟩ := Restriction.createAtPoints_rep h1 h2
    have hp := h3 e he
    have hl : S.np e * (op.rstrs r).numComp ≤ u.len := by
      rcases hu with hu | ⟨_, hu⟩
      · rw [hu]; unfold lenR; rw [if_pos f1]; exact Nat.mul_le_mul_right _ (np_le he)
      · unfold cntR at hu; rw [if_pos f1] at hu; exact hu
    rw [if_pos f1, Restriction.C19_element_scatter h1 h2 he (u := u) (v := v) (g1.lsz ▸ hv.1) (by rw [hp]; exact hl), hp]
    simp only [if_pos f1]
  · obtain ⟨f1, f2, f3, f4, f5⟩ := h.facts
    have hl : u.len = (op.rstrs r).blockSize * (S.D r).es * (S.D r).nc := by
      rcases hu with hu | ⟨hu, _⟩
      · rw [hu, f3]; unfold lenR; rw [if_neg f1, Nat.one_mul]
      · exact absurd hu f1
    rw [if_neg f1, f2.block_t (b := e) (by omega) (u := u) (v := v) (hv.2 f1) hl]
    obtain ⟨l, _, h2⟩ := h
    have hlane : laneEnd (op.rstrs r).blockSize (op.rstrs r).numElem (e * (op.rstrs r).blockSize) = 1 := by
      unfold laneEnd; rw [f3, f2.ne, h2]; omega
    rw [hlane, f3]
    simp only [if_neg f1, sum_range_one, Nat.mul_one, Nat.add_zero]
    congr 3
    funext t
    congr 2
    funext k n
    congr 1
    unfold eIdx
    simp

theorem addEl_err {op : Oper K} {S : PMean K} {r : Nat} (h : RstrOK op S r) {e : Nat} (he : e < op.ne) {u v : Buf K}
    (hv : ¬ FitsL (op.rstrs r) v.len) : ∃ c, addEl (op.rstrs r) e u v = .err c := by
  unfold addEl
  rcases h with h | h
  · obtain ⟨f1, f2⟩ := h.facts
    obtain ⟨m, l, h1, h2, h3⟩ := h
    obtain ⟨g1, _⟩ := Restriction.createAtPoints_rep h1 h2
    rw [if_pos f1]
    simp only [Restriction.applyAtPointsInElement]
    rw [Res.check_true f1, Res.bind_ok, g1.num he, Res.bind_ok]
    by_cases hc : (ptsIn (S.offs r) e : Int) * (op.rstrs r).numComp ≤ u.len
    · rw [Res.check_true hc, Res.bind_ok, Res.check_false (fun hl => hv ⟨hl, fun hh => absurd f1 hh⟩)]
      exact ⟨_, rfl⟩
    · rw [Res.check_false hc]
      exact ⟨_, rfl⟩
  · obtain ⟨f1, _⟩ := h.facts
    rw [if_neg f1]
    exact block_long_t (fun hl => hv ⟨hl.le, fun _ => hl⟩)

theorem scR_congr {op : Oper K} {S : PMean K} {e r : Nat} {w w' : Nat → K} (h : ∀ x < cntR op S e r, w x = w' x) (t : Nat) :
    scR op S e r w t = scR op S e r w' t := by
  unfold scR
  unfold cntR at h
  split
  · rename_i hp
    rw [if_pos hp] at h
    refine sum_congr rfl (fun p hp' => sum_congr rfl (fun j hj => ?_))
    rw [mem_range] at hp' hj
    rw [h _ (by rw [Nat.mul_comm (S.np e)]; exact enc_lt hj hp')]
  · rename_i hp
    rw [if_neg hp] at h
    refine elemScatter_congr _ _ (fun k hk n hn => h _ ?_)
    rw [Nat.mul_comm (S.D r).es]; exact enc_lt hk hn

theorem scR_sum {op : Oper K} {S : PMean K} {e r : Nat} (T : Finset Nat) (w : Nat → Nat → K) (t : Nat) :
    scR op S e r (fun x => ∑ o ∈ T, w o x) t = ∑ o ∈ T, scR op S e r (w o) t := by
  unfold scR
  split
  · refine Eq.trans ?_ sum_comm
    refine sum_congr rfl (fun p _ => ?_)
    refine Eq.trans ?_ sum_comm
    refine sum_congr rfl (fun j _ => ?_)
    split
    · rfl
    · rw [sum_const_zero]
  · exact elemScatter_sum T (fun o k n => w o (k * (S.D r).es + n)) e t

end Operator
end Verif
