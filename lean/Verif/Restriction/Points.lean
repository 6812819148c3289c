import Verif.Restriction.Apply
import Verif.Restriction.PointsSpec

/-!
# At-points kernels (helper lemmas)
-/

set_option linter.unusedSectionVars false

namespace Verif.Restriction
open Finset

variable {α : Type} [CommRing α]

/-- The stored restriction holds the user's array. -/
structure PRep (r : Rstr) (ne np nc : Nat) (lSize : Int) (offsets : Buf Int) : Prop where
  ok : PointsOK ne np nc lSize offsets
  rtype : r.rtype = .points
  hne : r.numElem = ne
  nb : r.numBlock = ne
  hnc : r.numComp = nc
  lsz : r.lSize = lSize
  bs : r.blockSize = 1
  offs : r.offsets = ⟨ne + 1 + np, offsets.val⟩
  esz : ptsBefore offsets ne * nc ≤ r.eSize

variable {r : Rstr} {ne np nc : Nat} {lSize : Int} {offsets : Buf Int}

theorem PointsOK.bounds (h : PointsOK ne np nc lSize offsets) {e : Nat} (he : e ≤ ne) :
    0 ≤ offsets.val e ∧ offsets.val e ≤ ne + 1 + np := by
  have h1 : ∀ e, e ≤ ne → 0 ≤ offsets.val e := by
    intro e
    induction e with
    | zero => intro _; exact h.first
    | succ e ih => intro he; have := ih (by omega); have := h.mono e (by omega); omega
  have h2 : ∀ d, d ≤ ne → offsets.val (ne - d) ≤ ne + 1 + np := by
    intro d
    induction d with
    | zero => intro _; exact h.last
    | succ d ih =>
      intro hd
      have := ih (by omega)
      have := h.mono (ne - (d + 1)) (by omega)
      rw [show ne - (d + 1) + 1 = ne - d by omega] at this
      omega
  have := h2 (ne - e) (by omega)
  rw [show ne - (ne - e) = e by omega] at this
  exact ⟨h1 e he, this⟩

theorem PRep.off (h : PRep r ne np nc lSize offsets) {e : Nat} (he : e ≤ ne) :
    r.offsets.rdI (e : Int) = .ok (offsets.val e) := by
  rw [h.offs, Buf.rdI_lt (by omega) (by simp only; omega)]; simp

theorem PRep.num (h : PRep r ne np nc lSize offsets) {e : Nat} (he : e < ne) :
    numPointsInElement r (e : Int) = .ok (ptsIn offsets e : Int) := by
  unfold numPointsInElement
  rw [Res.check_true h.rtype, Res.bind_ok, show (e : Int) + 1 = ((e + 1 : Nat) : Int) by push_cast; rfl,
    h.off (by omega), h.off (by omega)]
  simp only [Res.bind_ok]
  have := h.ok.mono e he
  unfold ptsIn
  congr 1; omega

theorem PRep.pt (h : PRep r ne np nc lSize offsets) {e i : Nat} (he : e < ne) (hi : i < ptsIn offsets e) :
    r.offsets.rdI ((i : Int) + offsets.val e) = .ok (ptAt offsets e i : Int) ∧ (ptAt offsets e i + 1) * nc ≤ lSize := by
  have h1 := h.ok.bounds (e := e) (by omega)
  have h2 := h.ok.bounds (e := e + 1) (by omega)
  have h3 := h.ok.idx e he i hi
  unfold ptsIn at hi
  rw [h.offs, Buf.rdI_lt (by omega) (by simp only; omega)]
  have e1 : ((i : Int) + offsets.val e).toNat = (offsets.val e).toNat + i := by omega
  constructor
  · simp only [e1, ptAt]; congr 1; omega
  · unfold ptAt
    rw [Int.toNat_of_nonneg h3.1]; exact h3.2

/-- Loop over pairs whose second component evolves on its own. -/
theorem loop_pair {σ : Type _} (n : Nat) (body : Nat → Int → σ → Res σ) (d : Nat → Nat) (s : σ) (f : Nat → σ × Int → Res (σ × Int))
    (hf : ∀ i < n, ∀ s, f i (s, ((∑ c ∈ range i, d c : Nat) : Int)) =
      (body i ((∑ c ∈ range i, d c : Nat) : Int) s >>= fun s' => Res.ok (s', ((∑ c ∈ range (i + 1), d c : Nat) : Int)))) :
    loop n f (s, 0) = (loop n (fun i s => body i ((∑ c ∈ range i, d c : Nat) : Int) s) s >>= fun s' =>
      Res.ok (s', ((∑ c ∈ range n, d c : Nat) : Int))) := by
  induction n with
  | zero => simp
  | succ n ih =>
    rw [loop_succ, loop_succ, ih (fun i hi => hf i (by omega))]
    cases hl : loop n (fun i s => body i ((∑ c ∈ range i, d c : Nat) : Int) s) s with
    | ok s' => simp only [Res.bind_ok]; exact hf n (by omega) s'
    | err e => rfl
    | ub => rfl

/-- Gather of one element at E-vector position `eo`. -/
def ptGather (r : Rstr) (nc e eo : Nat) (uu : Buf α) (vv : Buf α) : Res (Buf α) := do
  let lOff ← r.offsets.rdI (e : Int)
  let np ← numPointsInElement r (e : Int)
  loop np.toNat (fun i vv => loop nc (fun j vv => do
    let o ← r.offsets.rdI ((i : Int) + lOff)
    let x ← uu.rdI (o * nc + j)
    vv.wrI (j * np + i + (eo : Int)) x) vv) vv

def ptScatter (r : Rstr) (nc e eo : Nat) (uu : Buf α) (vv : Buf α) : Res (Buf α) := do
  let lOff ← r.offsets.rdI (e : Int)
  let np ← numPointsInElement r (e : Int)
  loop np.toNat (fun i vv => loop nc (fun j vv => do
    let o ← r.offsets.rdI ((i : Int) + lOff)
    let x ← uu.rdI (j * np + i + (eo : Int))
    vv.addAtI (o * nc + j) x) vv) vv

theorem PRep.kernel_eq (h : PRep r ne np nc lSize offsets) {start stop : Nat} (hs : stop ≤ ne) (t : TMode)
    (uu vv : Buf α) :
    pointsKernel r nc start stop t uu vv = loop (stop - start) (fun b vv =>
      match t with
      | .noTranspose => ptGather r nc (start + b) (∑ c ∈ range b, ptsIn offsets (start + c) * nc) uu vv
      | .transpose => ptScatter r nc (start + b) (∑ c ∈ range b, ptsIn offsets (start + c) * nc) uu vv) vv := by
  unfold pointsKernel
  rw [loop_pair (stop - start) (fun b eo vv => match t with
      | .noTranspose => ptGather r nc (start + b) eo.toNat uu vv
      | .transpose => ptScatter r nc (start + b) eo.toNat uu vv) (fun c => ptsIn offsets (start + c) * nc)]
  · simp only [Int.toNat_natCast]
    rw [Res.bind_assoc']
    simp
  · intro i hi s
    cases t
    all_goals
      simp only [Res.bind_ok, ptGather, ptScatter, Int.toNat_natCast, h.off (e := start + i) (by omega),
        h.num (e := start + i) (by omega), sum_range_succ]
      push_cast
      rfl

theorem PRep.gather (h : PRep r ne np nc lSize offsets) {e : Nat} (he : e < ne) {eo L : Nat}
    (hL : eo + ptsIn offsets e * nc ≤ L) {u : Buf α} (hu : lSize ≤ u.len) :
    Sets (ptGather r nc e eo u) L (fun x => eo ≤ x ∧ x < eo + ptsIn offsets e * nc)
      (fun x => u.val (ptAt offsets e ((x - eo) % ptsIn offsets e) * nc + (x - eo) / ptsIn offsets e)) := by
  refine (Sets.of_eq (S := fun x => ∃ i < ptsIn offsets e, ∃ j < nc, x = eo + (j * ptsIn offsets e + i))
    (f' := loop (ptsIn offsets e) (fun i => loop nc (fun j vv =>
      vv.wr (eo + (j * ptsIn offsets e + i)) (u.val (ptAt offsets e i * nc + j))))) ?_ ?_).congr ?_ (fun _ _ => rfl)
  · refine Sets.loop (fun i hi => Sets.loop (fun j hj => Sets.wr ?_ ?_))
    · have := enc_lt hj hi; rw [Nat.mul_comm nc] at this; omega
    · rw [Nat.add_sub_cancel_left, div_enc hi, mod_enc hi]
  · intro v hv
    unfold ptGather
    rw [h.off (by omega), h.num he]
    simp only [Res.bind_ok, Int.toNat_natCast]
    refine loop_congr fun i hi s => loop_congr fun j hj s => ?_
    obtain ⟨p1, p2⟩ := h.pt he hi
    have hlt : ((ptAt offsets e i : Int) * nc + j) < u.len := by
      have : ((ptAt offsets e i : Int) + 1) * nc = ptAt offsets e i * nc + nc := by ring
      omega
    rw [p1, Res.bind_ok, Buf.rdI_lt (by positivity) hlt, Res.bind_ok]
    have e1 : ((ptAt offsets e i : Int) * nc + j).toNat = ptAt offsets e i * nc + j := by
      rw [← Int.natCast_mul, ← Int.natCast_add, Int.toNat_natCast]
    have e2 : ((j : Int) * (ptsIn offsets e : Int) + i + (eo : Int)) = ((eo + (j * ptsIn offsets e + i) : Nat) : Int) := by
      push_cast; ring
    rw [e1, e2]
    simp only [Buf.wrI, Int.natCast_nonneg, if_true, Int.toNat_natCast]
  · intro x
    constructor
    · rintro ⟨i, hi, j, hj, rfl⟩
      have := enc_lt hj hi; rw [Nat.mul_comm nc] at this; omega
    · rintro ⟨h1, h2⟩
      have h3 : x - eo < nc * ptsIn offsets e := by rw [Nat.mul_comm]; omega
      obtain ⟨h4, h5⟩ := dec_lt h3
      exact ⟨_, h5, _, h4, by rw [dec_eq]; omega⟩

theorem PRep.scatter (h : PRep r ne np nc lSize offsets) {e : Nat} (he : e < ne) {eo L : Nat} {u : Buf α}
    (hu : eo + ptsIn offsets e * nc ≤ u.len) (hL : lSize ≤ L) :
    Adds (ptScatter r nc e eo u) L (fun t => ∑ i ∈ range (ptsIn offsets e), ∑ j ∈ range nc,
      if t = ptAt offsets e i * nc + j then u.val (eo + (j * ptsIn offsets e + i)) else 0) := by
  refine (Adds.of_eq (f' := loop (ptsIn offsets e) (fun i => loop nc (fun j vv =>
      vv.addAt (ptAt offsets e i * nc + j) (u.val (eo + (j * ptsIn offsets e + i)))))) ?_ ?_)
  · refine Adds.loop (fun i hi => Adds.loop (fun j hj => Adds.addAt ?_ _))
    obtain ⟨p1, p2⟩ := h.pt he hi
    have : ((ptAt offsets e i : Int) + 1) * nc = ((ptAt offsets e i * nc : Nat) : Int) + nc := by push_cast; ring
    omega
  · intro v hv
    unfold ptScatter
    rw [h.off (by omega), h.num he]
    simp only [Res.bind_ok, Int.toNat_natCast]
    refine loop_congr fun i hi s => loop_congr fun j hj s => ?_
    obtain ⟨p1, p2⟩ := h.pt he hi
    have e2 : ((j : Int) * (ptsIn offsets e : Int) + i + (eo : Int)) = ((eo + (j * ptsIn offsets e + i) : Nat) : Int) := by
      push_cast; ring
    have hlt : eo + (j * ptsIn offsets e + i) < u.len := by
      have := enc_lt hj hi; rw [Nat.mul_comm nc] at this; omega
    rw [p1, Res.bind_ok, e2, Buf.rdI_lt (by omega) (by omega), Res.bind_ok]
    have e1 : ((ptAt offsets e i : Int) * nc + j) = ((ptAt offsets e i * nc + j : Nat) : Int) := by push_cast; ring
    rw [e1]
    simp only [Buf.addAtI, Int.natCast_nonneg, if_true, Int.toNat_natCast]

theorem before_eq (offsets : Buf Int) (nc b : Nat) : ∑ c ∈ range b, ptsIn offsets c * nc = ptsBefore offsets b * nc := by
  rw [ptsBefore, sum_mul]

theorem before_succ (offsets : Buf Int) (b : Nat) : ptsBefore offsets (b + 1) = ptsBefore offsets b + ptsIn offsets b := by
  rw [ptsBefore, sum_range_succ]; rfl

theorem before_mono (offsets : Buf Int) {a b : Nat} (h : a ≤ b) : ptsBefore offsets a ≤ ptsBefore offsets b := by
  induction h with
  | refl => exact le_rfl
  | step _ ih => rw [Nat.succ_eq_add_one, before_succ]; omega

/-- Gather of the first `B` elements. -/
theorem PRep.gather_all (h : PRep r ne np nc lSize offsets) {B : Nat} (hB : B ≤ ne) {u v : Buf α} (hu : lSize ≤ u.len)
    (hv : ptsBefore offsets B * nc ≤ v.len) :
    ∃ v', loop B (fun b vv => ptGather r nc b (ptsBefore offsets b * nc) u vv) v = .ok v' ∧ v'.len = v.len ∧
      (∀ e < B, ∀ i < ptsIn offsets e, ∀ j < nc, v'.val (ptsBefore offsets e * nc + (j * ptsIn offsets e + i)) =
        u.val (ptAt offsets e i * nc + j)) ∧ ∀ x, ptsBefore offsets B * nc ≤ x → v'.val x = v.val x := by
  induction B with
  | zero => exact ⟨v, rfl, rfl, fun e he => by omega, fun _ _ => rfl⟩
  | succ B ih =>
    have hb : ptsBefore offsets (B + 1) * nc = ptsBefore offsets B * nc + ptsIn offsets B * nc := by
      rw [before_succ, Nat.add_mul]
    obtain ⟨v1, e1, l1, a1, c1⟩ := ih (by omega) (by omega)
    obtain ⟨v2, e2, l2, a2, c2⟩ := h.gather (e := B) (eo := ptsBefore offsets B * nc) (L := v.len) (by omega) (by omega) hu v1 l1
    refine ⟨v2, by rw [loop_succ, e1, Res.bind_ok, e2], l2, ?_, ?_⟩
    · intro e he i hi j hj
      have hlt := enc_lt hj hi
      rw [Nat.mul_comm nc] at hlt
      rcases Nat.lt_succ_iff_lt_or_eq.1 he with h3 | rfl
      · have : ptsBefore offsets (e + 1) * nc ≤ ptsBefore offsets B * nc := Nat.mul_le_mul_right _ (before_mono _ h3)
        rw [before_succ, Nat.add_mul] at this
        rw [c2 _ (by omega), a1 e h3 i hi j hj]
      · rw [a2 _ (by omega)]; dsimp only; rw [Nat.add_sub_cancel_left, div_enc hi, mod_enc hi]
    · intro x hx
      rw [c2 x (by omega), c1 x (by omega)]

theorem PRep.implApply (h : PRep r ne np nc lSize offsets) (bs : Nat) (cs : Int) (start stop : Nat) (t : TMode) (a b : Bool)
    (uu vv : Buf α) : implApply r nc bs cs start stop t a b uu vv = pointsKernel r nc start stop t uu vv := by
  have core : ∀ nc' bs' cs', nc' = nc → applyCore r nc' bs' cs' start stop t a b uu vv = pointsKernel r nc start stop t uu vv := by
    rintro nc' bs' cs' rfl
    unfold applyCore
    rw [h.rtype]
    cases t <;> rfl
  have key : ∀ {p : Prop} [Decidable p] {A B T : Res (Buf α)}, (p → A = T) → B = T → (if p then A else B) = T := by
    intro p _ A B T h1 h2
    split
    · exact h1 ‹_›
    · exact h2
  have hidx : ∀ N : Nat, 0 < N → (if r.blockSize < 10 then
      100 * (r.numComp : Int) + 10 * r.blockSize + (if r.compStride = 1 then 1 else 0) else -1) = (N : Int) →
      N / 100 = nc := by
    intro N hN hh
    rw [← h.hnc]
    split at hh
    · split at hh <;> omega
    · omega
  unfold Restriction.implApply
  simp only
  refine key (fun h => ?_) (key (fun h => ?_) (key (fun h => ?_) (key (fun h => ?_) (key (fun h => ?_)
    (key (fun h => ?_) (key (fun h => ?_) (key (fun h => ?_) (key (fun h => ?_) (key (fun h => ?_)
    (key (fun h => ?_) (key (fun h => ?_) (core _ _ _ rfl))))))))))))
  · exact core _ _ _ (hidx 110 (by omega) h)
  · exact core _ _ _ (hidx 111 (by omega) h)
  · exact core _ _ _ (hidx 180 (by omega) h)
  · exact core _ _ _ (hidx 181 (by omega) h)
  · exact core _ _ _ (hidx 310 (by omega) h)
  · exact core _ _ _ (hidx 311 (by omega) h)
  · exact core _ _ _ (hidx 380 (by omega) h)
  · exact core _ _ _ (hidx 381 (by omega) h)
  · exact core _ _ _ (hidx 510 (by omega) h)
  · exact core _ _ _ (hidx 511 (by omega) h)
  · exact core _ _ _ (hidx 580 (by omega) h)
  · exact core _ _ _ (hidx 581 (by omega) h)

/-- The largest slice among the first `B`. -/
def maxPts (offsets : Buf Int) : Nat → Nat
  | 0 => 0
  | B + 1 => max (maxPts offsets B) (ptsIn offsets B)

theorem le_maxPts (offsets : Buf Int) {e B : Nat} (h : e < B) : ptsIn offsets e ≤ maxPts offsets B := by
  induction B with
  | zero => omega
  | succ B ih =>
    simp only [maxPts]
    rcases Nat.lt_succ_iff_lt_or_eq.1 h with h | rfl
    · have := ih h; omega
    · omega

theorem createAtPoints_rep (hok : PointsOK ne np nc lSize offsets)
    (h : createAtPoints ne np nc lSize offsets = .ok r) : PRep r ne np nc lSize offsets ∧ 0 < nc ∧
      r.eSize = (ptsBefore offsets ne + (maxPts offsets ne - ptsIn offsets (ne - 1))) * nc := by
  have hpos := hok.pos
  have hlen := hok.len
  have rd : ∀ i ≤ ne, offsets.rdI ((i : Nat) : Int) = .ok (offsets.val i) := by
    intro i hi; rw [Buf.rdI_lt (by omega) (by omega), Int.toNat_natCast]
  have hp : ∀ i < ne, offsets.val (i + 1) - offsets.val i = ptsIn offsets i := by
    intro i hi; have := hok.mono i hi; unfold ptsIn; omega
  have hloop : loop ne (fun i (s : Int × Int) => do
      let a ← offsets.rdI ((i : Int) + 1)
      let b ← offsets.rdI (i : Int)
      Res.ok (max s.1 (a - b), s.2 + (a - b))) (0, 0) = .ok ((maxPts offsets ne : Int), (ptsBefore offsets ne : Int)) := by
    have := loop_pure (n := ne) (body := fun i (s : Int × Int) => do
      let a ← offsets.rdI ((i : Int) + 1)
      let b ← offsets.rdI (i : Int)
      Res.ok (max s.1 (a - b), s.2 + (a - b))) (s := (0, 0))
      (f := fun i => ((maxPts offsets i : Int), (ptsBefore offsets i : Int))) rfl ?_
    · exact this
    · intro i hi
      have e1 : (i : Int) + 1 = ((i + 1 : Nat) : Int) := by push_cast; rfl
      simp only [e1, rd (i + 1) (by omega), rd i (by omega), Res.bind_ok, hp i hi, maxPts, before_succ]
      push_cast
      rfl
  simp only [createAtPoints, Int.toNat_natCast] at h
  rw [hloop, rd ne le_rfl, show (ne : Int) - 1 = ((ne - 1 : Nat) : Int) by omega, rd (ne - 1) (by omega)] at h
  simp only [Res.bind_ok] at h
  have e2 := hp (ne - 1) (by omega)
  rw [show ne - 1 + 1 = ne by omega] at e2
  rw [e2, show ((ne : Int) + 1 + np).toNat = ne + 1 + np by omega] at h
  simp only [Res.bind_eq_ok, Res.check_eq_ok] at h
  obtain ⟨_, h1, _, h2, _, h3, _, h4, _, h5, offs, h6, h7⟩ := h
  obtain ⟨_, rfl⟩ := copyIn_ok h6
  cases h7
  have hm := le_maxPts offsets (e := ne - 1) (B := ne) (by omega)
  have hE : (((ptsBefore offsets ne : Int) + ((maxPts offsets ne : Int) - (ptsIn offsets (ne - 1) : Int))) * nc).toNat =
      (ptsBefore offsets ne + (maxPts offsets ne - ptsIn offsets (ne - 1))) * nc := by
    rw [← Int.natCast_sub hm, ← Int.natCast_add, ← Int.natCast_mul, Int.toNat_natCast]
  refine ⟨⟨hok, rfl, rfl, rfl, rfl, rfl, rfl, rfl, ?_⟩, by omega, hE⟩
  simp only [hE]
  exact Nat.mul_le_mul_right _ (by omega)

end Verif.Restriction
