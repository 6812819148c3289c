import Verif.Gpu.IncKernels

/-!
# The transposed offsets list the E-vector positions of every node
-/

namespace Verif.Gpu
open Finset Verif.Restriction

variable {α : Type} [CommRing α]

/-- Number of marked entries before `i`. -/
def cnt (m : Nat → Bool) (i : Nat) : Nat := ∑ j ∈ range i, if m j then 1 else 0

theorem cnt_succ (m : Nat → Bool) (i : Nat) : cnt m (i + 1) = cnt m i + if m i then 1 else 0 :=
  Finset.sum_range_succ _ _

theorem cnt_mono (m : Nat → Bool) {i j : Nat} (h : i ≤ j) : cnt m i ≤ cnt m j := by
  induction j, h using Nat.le_induction with
  | base => exact le_rfl
  | succ j _ ih => rw [cnt_succ]; omega

theorem cnt_lt (m : Nat → Bool) {i j : Nat} (hm : m i = true) (h : i < j) : cnt m i < cnt m j := by
  have h1 := cnt_succ m i
  rw [hm, if_pos rfl] at h1
  have h2 := cnt_mono m (show i + 1 ≤ j from h)
  omega

theorem cnt_inj (m : Nat → Bool) {i j : Nat} (hi : m i = true) (hj : m j = true) (h : cnt m i = cnt m j) : i = j := by
  rcases Nat.lt_trichotomy i j with hl | hl | hl
  · have := cnt_lt m hi hl
    omega
  · exact hl
  · have := cnt_lt m hj hl
    omega

theorem cnt_surj (m : Nat → Bool) (l : Nat) {x : Nat} (hx : x < cnt m l) : ∃ i < l, m i = true ∧ cnt m i = x := by
  induction l with
  | zero => simp [cnt] at hx
  | succ l ih =>
    rw [cnt_succ] at hx
    by_cases h : x < cnt m l
    · obtain ⟨i, hi, h1, h2⟩ := ih h
      exact ⟨i, by omega, h1, h2⟩
    · cases hm : m l with
      | false => rw [hm] at hx; simp at hx; omega
      | true => rw [hm, if_pos rfl] at hx; exact ⟨l, by omega, hm, by omega⟩

section Host
variable {N l : Nat} {indices : Buf Int}

/-- Entry `i` of the L-vector is a node of the restriction. -/
def isUsed (N : Nat) (indices : Buf Int) (i : Nat) : Bool := decide (∃ p < N, indices.val p = (i : Int))

theorem markNodes_ok (hl : N ≤ indices.len) (hin : ∀ p < N, 0 ≤ indices.val p ∧ indices.val p < l) :
    ∃ m, markNodes N indices (calloc l false) = .ok m ∧ m.len = l ∧ ∀ i < l, m.val i = isUsed N indices i := by
  obtain ⟨m, e, h1, h2⟩ := loop_inv (n := N) (body := fun i (n : Buf Bool) => do
      let ind ← indices.rd i
      n.wrI ind true) (s := calloc l false)
    (fun p (m : Buf Bool) => m.len = l ∧ ∀ i < l, m.val i = isUsed p indices i)
    ⟨rfl, fun i _ => by simp [calloc, isUsed]⟩ (fun p hp m hm => by
      have h := hin p hp
      refine ⟨⟨m.len, fun j => if j = (indices.val p).toNat then true else m.val j⟩, ?_, hm.1, fun i hi => ?_⟩
      · rw [Buf.rd_lt (by omega)]
        show Buf.wrI m (indices.val p) true = _
        unfold Buf.wrI
        rw [if_pos h.1, Buf.wr_lt (by rw [hm.1]; omega)]
      · show (if i = (indices.val p).toNat then true else m.val i) = isUsed (p + 1) indices i
        by_cases hi' : i = (indices.val p).toNat
        · rw [if_pos hi']
          symm
          unfold isUsed
          rw [decide_eq_true_eq]
          exact ⟨p, by omega, by omega⟩
        · rw [if_neg hi', hm.2 i hi]
          unfold isUsed
          rw [decide_eq_decide]
          constructor
          · rintro ⟨q, hq, he⟩
            exact ⟨q, by omega, he⟩
          · rintro ⟨q, hq, he⟩
            refine ⟨q, ?_, he⟩
            rcases Nat.lt_succ_iff_lt_or_eq.mp hq with hq | rfl
            · exact hq
            · omega)
  exact ⟨m, e, h1, h2⟩

theorem countNodes_ok {m : Buf Bool} (hm : m.len = l) : countNodes l m = .ok (cnt m.val l) := by
  refine loop_pure (f := fun i => cnt m.val i) rfl fun i hi => ?_
  rw [Buf.rd_lt (by omega), cnt_succ]
  rfl

theorem numberNodes_ok {m : Buf Bool} (hm : m.len = l) :
    ∃ lVec toOff j, numberNodes l m (calloc (cnt m.val l) 0) (calloc l 0) = .ok (lVec, toOff, j) ∧
      lVec.len = cnt m.val l ∧ toOff.len = l ∧
      ∀ i < l, m.val i = true → lVec.val (cnt m.val i) = (i : Int) ∧ toOff.val i = (cnt m.val i : Int) := by
  obtain ⟨⟨lVec, toOff, j⟩, e, h1, h2, -, h4⟩ := loop_inv (n := l)
    (body := fun i (s : Buf Int × Buf Int × Nat) => do
      let x ← m.rd i
      if x then do
        let lVec ← s.1.wr s.2.2 (i : Int)
        let toOff ← s.2.1.wr i (s.2.2 : Int)
        .ok (lVec, toOff, s.2.2 + 1)
      else .ok s) (s := (calloc (cnt m.val l) 0, calloc l 0, 0))
    (fun i (s : Buf Int × Buf Int × Nat) => s.1.len = cnt m.val l ∧ s.2.1.len = l ∧ s.2.2 = cnt m.val i ∧
      ∀ i' < i, m.val i' = true → s.1.val (cnt m.val i') = (i' : Int) ∧ s.2.1.val i' = (cnt m.val i' : Int))
    ⟨rfl, rfl, rfl, fun i hi => by omega⟩ (fun i hi s hs => by
      obtain ⟨hs1, hs2, hs3, hs4⟩ := hs
      rw [Buf.rd_lt (by omega)]
      cases hv : m.val i with
      | false =>
        refine ⟨s, by simp, hs1, hs2, by rw [cnt_succ, hv]; simpa using hs3, fun i' hi' hm' => ?_⟩
        rcases Nat.lt_succ_iff_lt_or_eq.mp hi' with h | rfl
        · exact hs4 i' h hm'
        · rw [hv] at hm'; cases hm'
      | true =>
        have hlt := cnt_lt m.val hv hi
        refine ⟨(⟨s.1.len, fun j => if j = s.2.2 then (i : Int) else s.1.val j⟩,
          ⟨s.2.1.len, fun j => if j = i then (s.2.2 : Int) else s.2.1.val j⟩, s.2.2 + 1), ?_, hs1, hs2, ?_,
          fun i' hi' hm' => ?_⟩
        · simp only [Res.bind_ok, if_true]
          rw [Buf.wr_lt (by omega), Res.bind_ok, Buf.wr_lt (by omega), Res.bind_ok]
        · rw [cnt_succ, hv, if_pos rfl, hs3]
        · show (if cnt m.val i' = s.2.2 then (i : Int) else s.1.val (cnt m.val i')) = _ ∧
            (if i' = i then (s.2.2 : Int) else s.2.1.val i') = _
          rcases Nat.lt_succ_iff_lt_or_eq.mp hi' with h | rfl
          · have := cnt_lt m.val hm' h
            rw [if_neg (by omega), if_neg (by omega)]
            exact hs4 i' h hm'
          · rw [if_pos hs3.symm, if_pos rfl, hs3]
            exact ⟨rfl, rfl⟩)
  exact ⟨lVec, toOff, j, e, h1, h2, h4⟩

/-! ### Counting and listing -/

/-- Occurrences of node `x` among the first `p` positions. -/
def occ (node : Nat → Nat) (p x : Nat) : Nat := ∑ q ∈ range p, if node q = x then 1 else 0

theorem occ_succ (node : Nat → Nat) (p x : Nat) : occ node (p + 1) x = occ node p x + if node p = x then 1 else 0 :=
  Finset.sum_range_succ _ _

theorem occ_mono (node : Nat → Nat) (x : Nat) {p q : Nat} (h : p ≤ q) : occ node p x ≤ occ node q x := by
  induction q, h using Nat.le_induction with
  | base => exact le_rfl
  | succ j _ ih => rw [occ_succ]; omega

/-- Start of the list of node `x`. -/
def st (node : Nat → Nat) (N x : Nat) : Nat := ∑ y ∈ range x, occ node N y

theorem st_succ (node : Nat → Nat) (N x : Nat) : st node N (x + 1) = st node N x + occ node N x :=
  Finset.sum_range_succ _ _

theorem st_mono (node : Nat → Nat) (N : Nat) {x y : Nat} (h : x ≤ y) : st node N x ≤ st node N y := by
  induction y, h using Nat.le_induction with
  | base => exact le_rfl
  | succ j _ ih => rw [st_succ]; omega

theorem st_total {node : Nat → Nat} {N nn : Nat} (h : ∀ p < N, node p < nn) : st node N nn = N := by
  unfold st occ
  rw [Finset.sum_comm]
  have : ∀ q ∈ range N, ∑ y ∈ range nn, (if node q = y then 1 else 0) = 1 := by
    intro q hq
    rw [Finset.sum_ite_eq, if_pos (Finset.mem_range.mpr (h q (Finset.mem_range.mp hq)))]
  rw [Finset.sum_congr rfl this]
  simp

/-- Double loop `for e < ne, for i < es` at position `es*e + i`. -/
theorem loop2_inv {σ : Type} {ne es : Nat} {body : Nat → σ → Res σ} {s : σ} (I : Nat → σ → Prop) (h0 : I 0 s)
    (hs : ∀ p < ne * es, ∀ s, I p s → ∃ s', body p s = .ok s' ∧ I (p + 1) s') :
    ∃ s', loop ne (fun e s => loop es (fun i s => body (es * e + i) s) s) s = .ok s' ∧ I (ne * es) s' := by
  have := loop_inv (n := ne) (body := fun e s => loop es (fun i s => body (es * e + i) s) s) (s := s)
    (fun e s => I (es * e) s) (by simpa using h0) (fun e he s hI => by
      have := loop_inv (n := es) (body := fun i s => body (es * e + i) s) (s := s) (fun i s => I (es * e + i) s)
        (by simpa using hI) (fun i hi s hI => by
          refine hs (es * e + i) ?_ s hI
          have : es * (e + 1) ≤ es * ne := Nat.mul_le_mul_left es he
          rw [Nat.mul_add, Nat.mul_one, Nat.mul_comm es ne] at this
          omega)
      obtain ⟨s', e1, h1⟩ := this
      exact ⟨s', e1, by rw [Nat.mul_add, Nat.mul_one]; exact h1⟩)
  rwa [Nat.mul_comm ne es]

variable {ne es nn : Nat} {toOff : Buf Int} {node : Nat → Nat}

/-- What the two passes over the offsets read. -/
structure Numbered (N l nn : Nat) (indices toOff : Buf Int) (node : Nat → Nat) : Prop where
  len : N ≤ indices.len
  olen : toOff.len = l
  rng : ∀ p < N, 0 ≤ indices.val p ∧ indices.val p < l
  off : ∀ p < N, toOff.val (indices.val p).toNat = (node p : Int)
  lt : ∀ p < N, node p < nn

theorem Numbered.read (h : Numbered N l nn indices toOff node) {p : Nat} (hp : p < N) :
    indices.rd p = .ok (indices.val p) ∧ toOff.rdI (indices.val p) = .ok (node p : Int) := by
  have h1 := h.len
  have h2 := h.rng p hp
  refine ⟨Buf.rd_lt (by omega), ?_⟩
  rw [Buf.rdI_lt h2.1 (by rw [h.olen]; exact h2.2), h.off p hp]

theorem countMult_ok (h : Numbered (ne * es) l nn indices toOff node) :
    ∃ t, countMult ne es indices toOff (calloc (nn + 1) 0) = .ok t ∧ t.len = nn + 1 ∧ t.val 0 = 0 ∧
      ∀ x < nn, t.val (x + 1) = (occ node (ne * es) x : Int) := by
  refine loop2_inv (body := fun p tOff => do
      let ind ← indices.rd p
      let o ← toOff.rdI ind
      incAt tOff (o + 1))
    (fun p (t : Buf Int) => t.len = nn + 1 ∧ t.val 0 = 0 ∧ ∀ x < nn, t.val (x + 1) = (occ node p x : Int))
    ⟨rfl, rfl, fun x _ => by simp [calloc, occ]⟩ (fun p hp t ht => ?_)
  have hn := h.lt p hp
  have e1 : t.rdI ((node p : Int) + 1) = .ok (t.val (node p + 1)) := by
    rw [Buf.rdI_lt (by omega) (by rw [ht.1]; omega)]
    exact congrArg (fun z => Res.ok (t.val z)) (by omega)
  refine ⟨⟨t.len, fun j => if j = node p + 1 then t.val (node p + 1) + 1 else t.val j⟩, ?_, ht.1, ?_, fun x hx => ?_⟩
  · rw [(h.read hp).1, Res.bind_ok, (h.read hp).2, Res.bind_ok]
    unfold incAt
    rw [e1, Res.bind_ok]
    unfold Buf.wrI
    have : ((node p : Int) + 1).toNat = node p + 1 := by omega
    rw [if_pos (by omega), this, Buf.wr_lt (by rw [ht.1]; omega)]
  · show (if 0 = node p + 1 then t.val (node p + 1) + 1 else t.val 0) = 0
    rw [if_neg (by omega), ht.2.1]
  · show (if x + 1 = node p + 1 then t.val (node p + 1) + 1 else t.val (x + 1)) = _
    rw [occ_succ]
    by_cases hx' : node p = x
    · subst hx'
      rw [if_pos rfl, if_pos rfl, ht.2.2 _ hx]
      push_cast
      rfl
    · rw [if_neg (by omega), if_neg hx', ht.2.2 x hx, Nat.add_zero]

theorem runningSum_ok {t : Buf Int} {N : Nat} (hl : t.len = nn + 1) (h0 : t.val 0 = 0)
    (h : ∀ x < nn, t.val (x + 1) = (occ node N x : Int)) :
    ∃ t', runningSum (nn + 1) t = .ok t' ∧ t'.len = nn + 1 ∧ ∀ x ≤ nn, t'.val x = (st node N x : Int) := by
  obtain ⟨t', e, h1, h2, -⟩ := loop_inv (n := nn) (body := fun i (tOff : Buf Int) => do
      let x ← tOff.rd (i + 1)
      let y ← tOff.rd i
      tOff.wr (i + 1) (x + y)) (s := t)
    (fun i (t' : Buf Int) => t'.len = nn + 1 ∧ (∀ x ≤ i, t'.val x = (st node N x : Int)) ∧
      ∀ x, i ≤ x → x < nn → t'.val (x + 1) = (occ node N x : Int))
    ⟨hl, fun x hx => by
      have : x = 0 := by omega
      subst this
      simpa [st] using h0, fun x _ hx => h x hx⟩ (fun i hi s hs => by
      obtain ⟨hs1, hs2, hs3⟩ := hs
      refine ⟨⟨s.len, fun j => if j = i + 1 then s.val (i + 1) + s.val i else s.val j⟩, ?_, hs1, fun x hx => ?_,
        fun x hx hx' => ?_⟩
      · rw [Buf.rd_lt (by omega), Res.bind_ok, Buf.rd_lt (by omega), Res.bind_ok, Buf.wr_lt (by omega)]
      · show (if x = i + 1 then s.val (i + 1) + s.val i else s.val x) = _
        by_cases hx' : x = i + 1
        · subst hx'
          rw [if_pos rfl, hs3 i le_rfl hi, hs2 i le_rfl, st_succ]
          push_cast
          exact add_comm _ _
        · rw [if_neg hx', hs2 x (by omega)]
      · show (if x + 1 = i + 1 then s.val (i + 1) + s.val i else s.val (x + 1)) = _
        rw [if_neg (by omega), hs3 x (by omega) hx'])
  exact ⟨t', e, h1, h2⟩

theorem listNodes_ok (h : Numbered (ne * es) l nn indices toOff node) {t : Buf Int} (hl : t.len = nn + 1)
    (ht : ∀ x ≤ nn, t.val x = (st node (ne * es) x : Int)) (junk : Nat → Int) :
    ∃ t' ti, listNodes ne es indices toOff (t, ⟨ne * es, junk⟩) = .ok (t', ti) ∧ t'.len = nn + 1 ∧ ti.len = ne * es ∧
      (∀ x ≤ nn, t'.val x = (st node (ne * es) x + occ node (ne * es) x : Nat)) ∧
      (∀ x < nn, ∀ k < occ node (ne * es) x, 0 ≤ ti.val (st node (ne * es) x + k) ∧
        ti.val (st node (ne * es) x + k) < (ne * es : Nat)) ∧
      ∀ x < nn, ∀ f : Nat → α, ∑ k ∈ range (occ node (ne * es) x), f (ti.val (st node (ne * es) x + k)).toNat =
        ∑ p ∈ range (ne * es), if node p = x then f p else 0 := by
  have htot := st_total h.lt
  obtain ⟨⟨t', ti⟩, e, h1, h2, h3, h4, h5⟩ := loop2_inv (ne := ne) (es := es)
    (body := fun p (s : Buf Int × Buf Int) => do
      let ind ← indices.rd p
      let o ← toOff.rdI ind
      let q ← s.1.rdI o
      let tOff ← s.1.wrI o (q + 1)
      let tInd ← s.2.wrI q (p : Int)
      Res.ok (tOff, tInd)) (s := ((t, ⟨ne * es, junk⟩) : Buf Int × Buf Int))
    (fun p (s : Buf Int × Buf Int) => s.1.len = nn + 1 ∧ s.2.len = ne * es ∧
      (∀ x ≤ nn, s.1.val x = (st node (ne * es) x + occ node p x : Nat)) ∧
      (∀ x < nn, ∀ k < occ node p x, 0 ≤ s.2.val (st node (ne * es) x + k) ∧
        s.2.val (st node (ne * es) x + k) < (ne * es : Nat)) ∧
      ∀ x < nn, ∀ f : Nat → α, ∑ k ∈ range (occ node p x), f (s.2.val (st node (ne * es) x + k)).toNat =
        ∑ q ∈ range p, if node q = x then f q else 0)
    ⟨hl, rfl, fun x hx => by simpa [occ] using ht x hx, fun x _ k hk => by simp [occ] at hk,
      fun x _ f => by simp [occ]⟩ (fun p hp s hs => by
      obtain ⟨hs1, hs2, hs3, hs4, hs5⟩ := hs
      have hn := h.lt p hp
      have hv : s.1.val (node p) = ((st node (ne * es) (node p) + occ node p (node p) : Nat) : Int) :=
        hs3 _ (by omega)
      have hocc : occ node p (node p) < occ node (ne * es) (node p) := by
        have h1 := occ_succ node p (node p)
        rw [if_pos rfl] at h1
        have h2 := occ_mono node (node p) (show p + 1 ≤ ne * es from hp)
        omega
      have hlt : st node (ne * es) (node p) + occ node p (node p) < st node (ne * es) (node p + 1) := by
        rw [st_succ]; omega
      have hle := st_mono node (ne * es) (show node p + 1 ≤ nn from hn)
      let w := st node (ne * es) (node p) + occ node p (node p)
      -- entries of the lists made so far are not overwritten
      have hsep : ∀ x < nn, ∀ k < occ node p x, st node (ne * es) x + k ≠ w := by
        intro x hx k hk he
        have hk' : k < occ node (ne * es) x := lt_of_lt_of_le hk (occ_mono node x hp.le)
        rcases Nat.lt_trichotomy x (node p) with hxn | hxn | hxn
        · have h1 := st_mono node (ne * es) (show x + 1 ≤ node p from hxn)
          rw [st_succ] at h1
          have : w = st node (ne * es) (node p) + occ node p (node p) := rfl
          omega
        · subst hxn
          have : w = st node (ne * es) (node p) + occ node p (node p) := rfl
          omega
        · have h1 := st_mono node (ne * es) (show node p + 1 ≤ x from hxn)
          have : w = st node (ne * es) (node p) + occ node p (node p) := rfl
          omega
      refine ⟨(⟨s.1.len, fun j => if j = node p then ((w : Nat) : Int) + 1 else s.1.val j⟩,
        ⟨s.2.len, fun j => if j = w then (p : Int) else s.2.val j⟩), ?_, hs1, hs2, fun x hx => ?_,
        fun x hx k hk => ?_, fun x hx f => ?_⟩
      · rw [(h.read hp).1, Res.bind_ok, (h.read hp).2, Res.bind_ok,
          Buf.rdI_lt (by omega) (by rw [hs1]; omega), Int.toNat_natCast, hv, Res.bind_ok]
        unfold Buf.wrI
        rw [if_pos (by omega), Int.toNat_natCast, Buf.wr_lt (by rw [hs1]; omega), Res.bind_ok, if_pos (by omega),
          Int.toNat_natCast, Buf.wr_lt (by rw [hs2]; omega), Res.bind_ok]
      · show (if x = node p then ((w : Nat) : Int) + 1 else s.1.val x) = _
        rw [occ_succ]
        by_cases hx' : x = node p
        · subst hx'
          rw [if_pos rfl, if_pos rfl]
          show ((st node (ne * es) (node p) + occ node p (node p) : Nat) : Int) + 1 = _
          push_cast
          omega
        · rw [if_neg hx', if_neg (fun hc => hx' hc.symm), hs3 x hx, Nat.add_zero]
      · show 0 ≤ (if st node (ne * es) x + k = w then (p : Int) else s.2.val (st node (ne * es) x + k)) ∧
          (if st node (ne * es) x + k = w then (p : Int) else s.2.val (st node (ne * es) x + k)) < (ne * es : Nat)
        by_cases he : st node (ne * es) x + k = w
        · rw [if_pos he]
          omega
        · rw [if_neg he]
          rw [occ_succ] at hk
          by_cases hx' : node p = x
          · subst hx'
            rw [if_pos rfl] at hk
            refine hs4 _ hx k ?_
            have : w = st node (ne * es) (node p) + occ node p (node p) := rfl
            omega
          · rw [if_neg hx'] at hk
            exact hs4 x hx k hk
      · show ∑ k ∈ range (occ node (p + 1) x), f (if st node (ne * es) x + k = w then (p : Int)
          else s.2.val (st node (ne * es) x + k)).toNat = _
        rw [Finset.sum_range_succ (fun q => if node q = x then f q else 0), ← hs5 x hx f, occ_succ]
        have hkeep : ∑ k ∈ range (occ node p x), f (if st node (ne * es) x + k = w then (p : Int)
            else s.2.val (st node (ne * es) x + k)).toNat =
            ∑ k ∈ range (occ node p x), f (s.2.val (st node (ne * es) x + k)).toNat :=
          Finset.sum_congr rfl fun k hk => by rw [if_neg (hsep x hx k (Finset.mem_range.mp hk))]
        by_cases hx' : node p = x
        · subst hx'
          rw [if_pos rfl, if_pos rfl, Finset.sum_range_succ, hkeep, if_pos rfl, Int.toNat_natCast]
        · rw [if_neg hx', if_neg hx', Nat.add_zero, hkeep, add_zero])
  exact ⟨t', ti, e, h1, h2, h3, h4, h5⟩

theorem resetSum_ok {t : Buf Int} {T : Nat → Int} (hl : t.len = nn + 1) (h : ∀ x ≤ nn, t.val x = T x) :
    ∃ t', resetSum (nn + 1) t = .ok t' ∧ t'.len = nn + 1 ∧ t'.val 0 = 0 ∧ ∀ x < nn, t'.val (x + 1) = T x := by
  obtain ⟨t', e, h1, h2, h3⟩ := loop_inv (n := nn) (body := fun i (tOff : Buf Int) => do
      let x ← tOff.rd (nn + 1 - 1 - i - 1)
      tOff.wr (nn + 1 - 1 - i) x) (s := t)
    (fun i (t' : Buf Int) => t'.len = nn + 1 ∧ (∀ x, x + i ≤ nn → t'.val x = T x) ∧
      ∀ x, x ≤ nn → nn < x + i → t'.val x = T (x - 1))
    ⟨hl, fun x hx => h x (by omega), fun x _ _ => by omega⟩ (fun i hi s hs => by
      obtain ⟨hs1, hs2, hs3⟩ := hs
      refine ⟨⟨s.len, fun j => if j = nn - i then s.val (nn - i - 1) else s.val j⟩, ?_, hs1, fun x hx => ?_,
        fun x hx hx' => ?_⟩
      · have e1 : nn + 1 - 1 - i = nn - i := by omega
        rw [e1, Buf.rd_lt (by omega), Res.bind_ok, Buf.wr_lt (by omega)]
      · show (if x = nn - i then _ else s.val x) = _
        rw [if_neg (by omega), hs2 x (by omega)]
      · show (if x = nn - i then s.val (nn - i - 1) else s.val x) = _
        by_cases he : x = nn - i
        · rw [if_pos he, hs2 _ (by omega), he]
        · rw [if_neg he, hs3 x hx (by omega)])
  refine ⟨⟨t'.len, fun j => if j = 0 then 0 else t'.val j⟩, ?_, h1, rfl, fun x hx => ?_⟩
  · unfold resetSum
    have e' : loop (nn + 1 - 1) (fun i (tOff : Buf Int) => do
      let x ← tOff.rd (nn + 1 - 1 - i - 1)
      tOff.wr (nn + 1 - 1 - i) x) t = .ok t' := e
    rw [e', Res.bind_ok, Buf.wr_lt (by omega)]
  · show (if x + 1 = 0 then 0 else t'.val (x + 1)) = _
    rw [if_neg (by omega), h3 (x + 1) (by omega) (by omega)]
    rfl

end Host

/-- The transposed offsets list, for every node of the restriction, the E-vector positions that belong to it. -/
theorem offsetCuda_ok {ne es : Nat} {lSize : Int} {indices : Buf Int} (junk : Nat → Int) (hl : ne * es ≤ indices.len)
    (hin : ∀ p < ne * es, 0 ≤ indices.val p ∧ indices.val p < lSize) :
    ∃ nn lVec tInd tOff, offsetCuda ne es lSize indices junk = .ok (nn, lVec, tInd, tOff) ∧
      Transposed nn (ne * es) lVec tInd tOff ∧ (0 < ne * es → 0 < nn) ∧
      (∀ x < nn, ∃ p < ne * es, lVec.val x = indices.val p) ∧
      (∀ p < ne * es, ∃ x < nn, lVec.val x = indices.val p) ∧
      (∀ x < nn, ∀ y < nn, lVec.val x = lVec.val y → x = y) ∧
      ∀ (val : Nat → Nat → α), ∀ x < nn, ∀ c, detVal tInd tOff val x c =
        ∑ p ∈ range (ne * es), if indices.val p = lVec.val x then val p c else 0 := by
  have hin' : ∀ p < ne * es, 0 ≤ indices.val p ∧ indices.val p < (lSize.toNat : Int) := fun p hp => by
    have := hin p hp
    omega
  obtain ⟨m, e1, hm1, hm2⟩ := markNodes_ok hl hin'
  have e2 := countNodes_ok hm1
  obtain ⟨lVec, toOff, j, e3, hv1, ho1, hvo⟩ := numberNodes_ok hm1
  have hmark : ∀ p < ne * es, m.val (indices.val p).toNat = true := by
    intro p hp
    have := hin' p hp
    rw [hm2 _ (by omega)]
    unfold isUsed
    rw [decide_eq_true_eq]
    exact ⟨p, hp, by omega⟩
  let nn := cnt m.val lSize.toNat
  let node := fun p => cnt m.val (indices.val p).toNat
  have hnode : ∀ p < ne * es, node p < nn := fun p hp => by
    have := hin' p hp
    exact cnt_lt m.val (hmark p hp) (by omega)
  have hnum : Numbered (ne * es) lSize.toNat nn indices toOff node :=
    ⟨hl, ho1, hin', fun p hp => (hvo _ (by have := hin' p hp; omega) (hmark p hp)).2, hnode⟩
  have hlv : ∀ p < ne * es, lVec.val (node p) = indices.val p := fun p hp => by
    have h1 := hin' p hp
    rw [(hvo _ (by omega) (hmark p hp)).1]
    omega
  have hsurj : ∀ x < nn, ∃ i < lSize.toNat, m.val i = true ∧ cnt m.val i = x := fun x hx => cnt_surj m.val _ hx
  have hlv' : ∀ x < nn, ∃ p < ne * es, lVec.val x = indices.val p ∧ node p = x := by
    intro x hx
    obtain ⟨i, hi, hi1, hi2⟩ := hsurj x hx
    have hu := hm2 i hi
    rw [hi1] at hu
    unfold isUsed at hu
    obtain ⟨p, hp, hpe⟩ := of_decide_eq_true hu.symm
    refine ⟨p, hp, ?_, ?_⟩
    · rw [hpe, ← hi2, (hvo i hi hi1).1]
    · show cnt m.val (indices.val p).toNat = x
      rw [hpe, Int.toNat_natCast, hi2]
  have hiff : ∀ p < ne * es, ∀ x < nn, (node p = x ↔ indices.val p = lVec.val x) := by
    intro p hp x hx
    constructor
    · rintro rfl
      exact (hlv p hp).symm
    · intro he
      obtain ⟨q, hq, hq1, hq2⟩ := hlv' x hx
      rw [← hq2]
      show cnt m.val (indices.val p).toNat = cnt m.val (indices.val q).toNat
      rw [he, hq1]
  obtain ⟨t1, e4, ht1, ht10, ht1v⟩ := countMult_ok hnum
  obtain ⟨t2, e5, ht2, ht2v⟩ := runningSum_ok ht1 ht10 ht1v
  obtain ⟨t3, ti, e6, ht3, hti, ht3v, htin, htsum⟩ := listNodes_ok (α := α) hnum ht2 ht2v junk
  obtain ⟨t4, e7, ht4, ht40, ht4v⟩ := resetSum_ok ht3 ht3v
  have htot := st_total hnode
  have ht4s : ∀ x ≤ nn, t4.val x = (st node (ne * es) x : Int) := by
    intro x hx
    cases x with
    | zero => rw [ht40]; simp [st]
    | succ x => rw [ht4v x (by omega), st_succ]
  have hdet : ∀ x < nn, ∀ f : Nat → α,
      ((intRange (t4.val x) (t4.val (x + 1))).map fun j => f (ti.val j.toNat).toNat).sum =
        ∑ p ∈ range (ne * es), if indices.val p = lVec.val x then f p else 0 := by
    intro x hx f
    rw [ht4s x hx.le, ht4s (x + 1) hx, st_succ]
    unfold intRange
    have hlen : (((st node (ne * es) x + occ node (ne * es) x : Nat) : Int) - (st node (ne * es) x : Int)).toNat =
        occ node (ne * es) x := by omega
    rw [hlen, List.map_map, sum_map_range]
    have hc : ∀ k ∈ range (occ node (ne * es) x),
        ((fun j : Int => f (ti.val j.toNat).toNat) ∘ fun k : Nat => (st node (ne * es) x : Int) + (k : Int)) k =
          f (ti.val (st node (ne * es) x + k)).toNat := by
      intro k _
      have : ((st node (ne * es) x : Int) + (k : Int)).toNat = st node (ne * es) x + k := by omega
      simp only [Function.comp_apply, this]
    rw [Finset.sum_congr rfl hc, htsum x hx f]
    refine Finset.sum_congr rfl fun p hp => ?_
    rw [Finset.mem_range] at hp
    exact if_congr (hiff p hp x hx) rfl rfl
  refine ⟨nn, lVec, ti, t4, ?_, ⟨by rw [hv1], by rw [ht4], fun i hi => ?_, fun i hi => ?_, fun i hi j hj1 hj2 => ?_⟩,
    fun hpos => ?_, fun x hx => ?_, fun p hp => ⟨node p, hnode p hp, hlv p hp⟩, fun x hx y hy he => ?_,
    fun val x hx c => hdet x hx fun p => val p c⟩
  · unfold offsetCuda
    simp only [e1, e2, e3, e4, e5, e6, e7, Res.bind_ok, nn]
  · rw [ht4s i hi]; omega
  · rw [ht4s i hi, hti]
    have := st_mono node (ne * es) hi
    omega
  · rw [ht4s i hi.le] at hj1
    rw [ht4s (i + 1) hi, st_succ] at hj2
    have := htin i hi (j.toNat - st node (ne * es) i) (by omega)
    rwa [show st node (ne * es) i + (j.toNat - st node (ne * es) i) = j.toNat by omega] at this
  · exact lt_of_le_of_lt (Nat.zero_le _) (hnode 0 hpos)
  · obtain ⟨p, hp, h1, -⟩ := hlv' x hx
    exact ⟨p, hp, h1⟩
  · obtain ⟨p, hp, h1, h2⟩ := hlv' x hx
    obtain ⟨q, hq, h3, h4⟩ := hlv' y hy
    rw [← h2, (hiff p hp y hy), ← h1, he]

end Verif.Gpu
