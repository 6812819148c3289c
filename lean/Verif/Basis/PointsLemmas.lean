import Verif.Basis.PointsSpec
import Verif.Basis.Chain
import Mathlib.RingTheory.Polynomial.Chebyshev

/-!
# Evaluation at points: Chebyshev coefficients to points and back (helper lemmas)
-/

namespace Verif
namespace Basis

open Finset Polynomial
open Restriction (TMode)

variable {K : Type} [Field K]

local notation "U" => Chebyshev.U K

theorem U_rec (k : Nat) : U ((k + 2 : Nat) : Int) = 2 * X * U ((k + 1 : Nat) : Int) - U (k : Int) := by
  have := Chebyshev.U_add_two K (k : Int)
  push_cast
  exact this

theorem chebVals_ok {x : K} {n off : Nat} {out : Buf K} (hn : 2 ≤ n) (ho : off + n ≤ out.len) :
    ∃ out', chebVals x n out off = .ok out' ∧ out'.len = out.len ∧ (∀ k < n, out'.val (off + k) = (U (k : Int)).eval x) ∧
      ∀ i, (i < off ∨ off + n ≤ i) → out'.val i = out.val i := by
  unfold chebVals
  rw [Buf.wr_lt (by omega), Res.bind_ok, Buf.wr_lt (by simp only; omega), Res.bind_ok]
  have key := loop_inv (n := n - 2) (body := fun i' (out : Buf K) => do
      let a ← out.rd (off + (i' + 1))
      let b ← out.rd (off + i')
      out.wr (off + (i' + 2)) (2 * x * a - b))
    (s := ⟨out.len, fun j => if j = off + 1 then 2 * x else if j = off then 1 else out.val j⟩)
    (fun t (o : Buf K) => o.len = out.len ∧ (∀ k < t + 2, o.val (off + k) = (U (k : Int)).eval x) ∧
      ∀ i, (i < off ∨ off + n ≤ i) → o.val i = out.val i) ?_ ?_
  · obtain ⟨o, e, h1, h2, h3⟩ := key
    exact ⟨o, e, h1, fun k hk => h2 k (by omega), h3⟩
  · refine ⟨rfl, ?_, ?_⟩
    · intro k hk
      have : k = 0 ∨ k = 1 := by omega
      rcases this with rfl | rfl
      · simp
      · simp
    · intro i hi
      simp only
      rw [if_neg (by omega), if_neg (by omega)]
  · intro i hi o ⟨h1, h2, h3⟩
    rw [Buf.rd_lt (by omega), Res.bind_ok, Buf.rd_lt (by omega), Res.bind_ok, Buf.wr_lt (by omega)]
    refine ⟨_, rfl, h1, ?_, ?_⟩
    · intro k hk
      simp only
      split
      · next h =>
        have hk : k = i + 2 := by omega
        subst hk
        rw [h2 (i + 1) (by omega), h2 i (by omega), U_rec]
        simp
      · exact h2 k (by omega)
    · intro j hj
      simp only
      rw [if_neg (by omega), h3 j hj]

theorem chebDers_ok {x : K} {n : Nat} {out : Buf K} (hn : 2 ≤ n) (ho : out.len = n) :
    ∃ out', chebDers x n out = .ok out' ∧ out'.len = n ∧ ∀ k < n, out'.val k = (derivative (U (k : Int))).eval x := by
  unfold chebDers
  rw [Buf.wr_lt (by omega), Res.bind_ok, Buf.wr_lt (by simp only; omega), Res.bind_ok]
  have key := loop_inv (n := n - 2) (body := fun i' (s : K × K × Buf K) => do
      let a ← s.2.2.rd (i' + 1)
      let b ← s.2.2.rd i'
      let out ← s.2.2.wr (i' + 2) (2 * x * a + 2 * s.2.1 - b)
      Res.ok (s.2.1, 2 * x * s.2.1 - s.1, out))
    (s := (1, 2 * x, ⟨out.len, fun j => if j = 1 then 2 else if j = 0 then 0 else out.val j⟩))
    (fun t (s : K × K × Buf K) => s.2.2.len = n ∧ s.1 = (U (t : Int)).eval x ∧ s.2.1 = (U ((t + 1 : Nat) : Int)).eval x ∧
      ∀ k < t + 2, s.2.2.val k = (derivative (U (k : Int))).eval x) ?_ ?_
  · obtain ⟨s, e, h1, _, _, h2⟩ := key
    simp only at e ⊢
    rw [e]
    exact ⟨_, rfl, h1, fun k hk => h2 k (by omega)⟩
  · refine ⟨ho, by simp, by simp, ?_⟩
    intro k hk
    have : k = 0 ∨ k = 1 := by omega
    rcases this with rfl | rfl
    · simp
    · simp
  · rintro i hi ⟨x1, x2, o⟩ ⟨h1, h2, h3, h4⟩
    simp only at h1 h2 h3 h4
    simp only
    rw [Buf.rd_lt (by omega), Res.bind_ok, Buf.rd_lt (by omega), Res.bind_ok, Buf.wr_lt (by omega), Res.bind_ok]
    refine ⟨_, rfl, h1, h3, ?_, ?_⟩
    · simp only
      rw [h2, h3, show i + 1 + 1 = i + 2 from rfl, U_rec]
      simp
    · intro k hk
      simp only
      split
      · next h =>
        subst h
        rw [h4 (i + 1) (by omega), h4 i (by omega), h3, U_rec]
        simp only [derivative_sub, derivative_mul, derivative_X, eval_sub, eval_add, eval_mul, eval_X]
        simp
        ring
      · exact h4 k (by omega)

theorem pointMats_ok {dim np Q1 p : Nat} {x : Buf K} (deriv : Nat → Bool) (junk : Nat → K) (hQ : 2 ≤ Q1) (hp : p < np)
    (hx : np * dim ≤ x.len) : ∃ m, pointMats dim np Q1 p x deriv junk = .ok m ∧ ∀ d < dim, (m d).len = Q1 ∧
      ∀ k < Q1, (m d).val k = pev (deriv d) (U (k : Int)) (x.val (d * np + p)) := by
  unfold pointMats
  have key := loop_inv (n := dim) (body := fun d (f : Nat → Buf K) => do
    let xd ← x.rd (d * np + p)
    let m ← pointRow (deriv d) xd Q1 ⟨Q1, junk⟩
    Res.ok (fun d' => if d' = d then m else f d')) (s := fun _ => ⟨0, fun _ => 0⟩)
    (fun t (m : Nat → Buf K) => ∀ d < t, (m d).len = Q1 ∧
      ∀ k < Q1, (m d).val k = pev (deriv d) (U (k : Int)) (x.val (d * np + p))) ?_ ?_
  · obtain ⟨m, e, h⟩ := key
    exact ⟨m, e, h⟩
  · intro d hd; omega
  · intro i hi f hf
    have hlt : i * np + p < x.len := by
      have := enc_lt hi hp
      rw [Nat.mul_comm dim np] at this
      omega
    obtain ⟨m, e, h1, h2⟩ : ∃ m, pointRow (deriv i) (x.val (i * np + p)) Q1 ⟨Q1, junk⟩ = .ok m ∧ m.len = Q1 ∧
        ∀ k < Q1, m.val k = pev (deriv i) (U (k : Int)) (x.val (i * np + p)) := by
      unfold pev pointRow
      split
      · exact chebDers_ok hQ rfl
      · obtain ⟨m, e, h1, h2, _⟩ := chebVals_ok (x := x.val (i * np + p)) (out := ⟨Q1, junk⟩) (off := 0) hQ (by simp)
        exact ⟨m, e, h1, fun k hk => by have := h2 k hk; rwa [Nat.zero_add] at this⟩
    rw [Buf.rd_lt hlt, Res.bind_ok, e, Res.bind_ok]
    refine ⟨_, rfl, ?_⟩
    intro d hd
    by_cases hdi : d = i
    · subst hdi; simp only [if_true]; exact ⟨h1, h2⟩
    · simp only [hdi, if_false]; exact hf d (by omega)

/-- Weight of the Chebyshev coefficient number `l` in the value (or derivative) at point `p`. -/
noncomputable def wU (b : Bas K) (np : Nat) (x : Buf K) (deriv : Nat → Bool) (p l : Nat) : K :=
  ∏ d ∈ range b.dim, pev (deriv d) (U (coord b.Q1 d l : Int)) (x.val (d * np + p))

theorem sum_digits (F : Nat → Nat → K) {Q : Nat} (dim : Nat) (hQ : 0 < Q) :
    ∑ l ∈ range (Q ^ dim), ∏ d ∈ range dim, F d (coord Q d l) = ∏ d ∈ range dim, ∑ k ∈ range Q, F d k := by
  induction dim with
  | zero => simp
  | succ n ih =>
    rw [show Q ^ (n + 1) = Q * Q ^ n by ring, Restriction.sum_range_mul, prod_range_succ, ← ih, mul_comm, sum_mul]
    refine sum_congr rfl fun j hj => ?_
    rw [mul_sum]
    refine sum_congr rfl fun l hl => ?_
    rw [prod_range_succ, mul_comm]
    unfold coord
    rw [digit_hi (mem_range.1 hj) (mem_range.1 hl)]
    congr 1
    refine prod_congr rfl fun i hi => ?_
    rw [digit_lo _ _ hQ (mem_range.1 hi)]

theorem coord_lt {Q : Nat} (hQ : 0 < Q) (d l : Nat) : coord Q d l < Q := Nat.mod_lt _ hQ

theorem evalPoint_ok {b : Bas K} {np p : Nat} {x co : Buf K} (deriv : Nat → Bool) (pos : Nat → Nat) (junk : Nat → Nat → K) {L : Nat}
    {g : Nat → K} (hd : 0 < b.dim) (hQ : 2 ≤ b.Q1) (hp : p < np) (hx : np * b.dim ≤ x.len) (hco : b.coefs ≤ co.len)
    (hpos : ∀ c < b.nc, pos c < L)
    (hg : ∀ c < b.nc, g (pos c) = ∑ l ∈ range (b.Q1 ^ b.dim), wU b np x deriv p l * co.val (c * b.Q1 ^ b.dim + l)) :
    Sets (evalPoint b np p x co deriv pos junk) L (fun y => ∃ c < b.nc, y = pos c) g := by
  obtain ⟨m, em, hm⟩ := pointMats_ok (Q1 := b.Q1) deriv (junk 3) hQ hp hx
  have hQ' : 0 < b.Q1 := by omega
  have hpow : ∀ d ≤ b.dim, b.Q1 ^ (b.dim - d) ≤ b.Q1 ^ b.dim := fun d _ => Nat.pow_le_pow_right hQ' (by omega)
  have hch := chain_eq (dim := b.dim) (nc := b.nc) (ne := 1) (P := b.Q1) (Q := 1) (size := b.coefs) (mat := m) (tm := .noTranspose)
    (add := false) (junk := junk) (u := co) (uo := 0) (v := ⟨b.coefs, junk 2⟩) (vo := 0) hd hQ'
    (fun d hd' => by rw [(hm d hd').1]; omega) (by unfold Bas.coefs at hco; omega)
    (by
      have := Nat.mul_le_mul_left b.nc (Nat.one_le_pow b.dim b.Q1 hQ')
      simp only [one_pow, Bas.coefs]; omega)
    (fun d _ hd' => by
      have := Nat.mul_le_mul_left b.nc (hpow d (by omega))
      simp only [one_pow, Bas.coefs]; omega)
  intro v hv
  unfold evalPoint
  simp only
  rw [em, Res.bind_ok, hch, Res.bind_ok]
  refine (Sets.loop (S := fun c y => y = pos c) (g := g) (fun c hc => ?_)) v hv
  have hle := Nat.mul_le_mul_left b.nc (Nat.one_le_pow b.dim b.Q1 hQ')
  rw [Buf.rd_lt (by simp only [contrOut, Bas.coefs]; omega)]
  refine Sets.wr (hpos c hc) ?_
  rw [hg c hc]
  simp only [contrOut, one_pow, mul_one]
  rw [if_pos (by omega)]
  simp only [Bool.false_eq_true, if_false, zero_add, Nat.sub_zero]
  have := contr_enc (B := b.Q1 ^ b.dim) (C := 1) (J := 1) (kron (fun d => tmat (m d) 0 .noTranspose b.Q1 1) 1 b.Q1 b.dim)
    (fun i => co.val i) (a := c) (j := 0) (c := 0) (by omega) (by omega)
  simp only [mul_one, add_zero] at this
  rw [this]
  refine sum_congr rfl fun l _ => ?_
  congr 1
  unfold kron wU
  refine prod_congr rfl fun d hd' => ?_
  have hk := coord_lt hQ' d l
  unfold coord at hk ⊢
  simp only [tmat, one_pow, Nat.mod_one, zero_mul, zero_add]
  exact (hm d (mem_range.1 hd')).2 _ hk

theorem gatherPoint_ok {b : Bas K} {np p : Nat} {x u co : Buf K} (deriv : Nat → Bool) (pos : Nat → Nat) (add : Bool)
    (junk : Nat → Nat → K) (hd : 0 < b.dim) (hQ : 2 ≤ b.Q1) (hp : p < np) (hx : np * b.dim ≤ x.len) (hco : co.len = b.coefs)
    (hpos : ∀ c < b.nc, pos c < u.len) :
    ∃ co', gatherPoint b np p x u deriv pos add junk co = .ok co' ∧ co'.len = b.coefs ∧
      ∀ c < b.nc, ∀ l < b.Q1 ^ b.dim, co'.val (c * b.Q1 ^ b.dim + l) =
        (if add then co.val (c * b.Q1 ^ b.dim + l) else 0) + wU b np x deriv p l * u.val (pos c) := by
  obtain ⟨m, em, hm⟩ := pointMats_ok (Q1 := b.Q1) deriv (junk 3) hQ hp hx
  have hQ' : 0 < b.Q1 := by omega
  have hle := Nat.mul_le_mul_left b.nc (Nat.one_le_pow b.dim b.Q1 hQ')
  obtain ⟨t, et, ht, hta, _⟩ := Sets.loop (n := b.nc) (body := fun c (t : Buf K) => do
      let y ← u.rd (pos c)
      t.wr c y) (L := b.coefs) (S := fun c y => y = c) (g := fun c => u.val (pos c)) (by
        intro c hc
        rw [Buf.rd_lt (hpos c hc)]
        refine Sets.wr (by unfold Bas.coefs; omega) rfl) ⟨b.coefs, junk 0⟩ rfl
  have hch := chain_eq (dim := b.dim) (nc := b.nc) (ne := 1) (P := 1) (Q := b.Q1) (size := b.coefs) (mat := m) (tm := .transpose)
    (add := add) (junk := fun k => if k = 0 then t.val else junk k) (u := t) (uo := 0) (v := co) (vo := 0) hd (by omega)
    (fun d hd' => by rw [(hm d hd').1]; omega) (by simp only [one_pow, Bas.coefs] at ht ⊢; omega)
    (by unfold Bas.coefs at hco; omega)
    (fun d _ hd' => by
      have := Nat.mul_le_mul_left b.nc (Nat.pow_le_pow_right hQ' (show d ≤ b.dim by omega))
      simp only [one_pow, Bas.coefs, mul_one]; omega)
  unfold gatherPoint
  rw [em, Res.bind_ok, et, Res.bind_ok, hch]
  refine ⟨_, rfl, hco, ?_⟩
  intro c hc l hl
  have hlt : c * b.Q1 ^ b.dim + l < b.nc * b.Q1 ^ b.dim := enc_lt hc hl
  simp only [contrOut, one_pow, mul_one]
  rw [if_pos (by omega)]
  congr 1
  rw [Nat.sub_zero]
  have := contr_enc (B := 1) (C := 1) (J := b.Q1 ^ b.dim) (kron (fun d => tmat (m d) 0 .transpose 1 b.Q1) b.Q1 1 b.dim)
    (fun i => t.val (0 + i)) (a := c) (j := l) (c := 0) hl (by omega)
  simp only [mul_one, add_zero, sum_range_one, zero_add] at this
  simp only [zero_add]
  rw [this, hta c ⟨c, hc, rfl⟩]
  congr 1
  unfold kron wU
  refine prod_congr rfl fun d hd' => ?_
  have hk := coord_lt hQ' d l
  unfold coord at hk ⊢
  simp only [tmat, Nat.mod_one, zero_mul, zero_add]
  exact (hm d (mem_range.1 hd')).2 _ hk

theorem toPoints_ok {b : Bas K} {em : EMode} (hem : em = .interp ∨ em = .grad) (hH : b.isH1 = true) {np : Nat} {x co : Buf K}
    (junk : Nat → Nat → Nat → Nat → K) {v : Buf K} (hd : 0 < b.dim) (hQ : 2 ≤ b.Q1) (hx : np * b.dim ≤ x.len) (hco : b.coefs ≤ co.len)
    (hv : np * b.nc * b.qComp em ≤ v.len) :
    ∃ v', toPoints b em np x co junk v = .ok v' ∧ v'.len = v.len ∧
      (∀ k < b.qComp em, ∀ c < b.nc, ∀ p < np, v'.val (pointPos b.nc np k c p) =
        ∑ l ∈ range (b.Q1 ^ b.dim), wU b np x (along em k) p l * co.val (c * b.Q1 ^ b.dim + l)) ∧
      ∀ i, np * b.nc * b.qComp em ≤ i → v'.val i = v.val i := by
  obtain ⟨g, hg⟩ : ∃ g : Nat → K, ∀ k < b.qComp em, ∀ c < b.nc, ∀ p < np, g (pointPos b.nc np k c p) =
      ∑ l ∈ range (b.Q1 ^ b.dim), wU b np x (along em k) p l * co.val (c * b.Q1 ^ b.dim + l) := by
    refine ⟨fun y => ∑ l ∈ range (b.Q1 ^ b.dim), wU b np x (along em (y / np / b.nc)) (y % np) l *
      co.val (y / np % b.nc * b.Q1 ^ b.dim + l), ?_⟩
    intro k hk c hc p hp
    unfold pointPos
    simp only
    rw [div_enc hp, mod_enc hp, div_enc hc, mod_enc hc]
  have hlt : ∀ k < b.qComp em, ∀ c < b.nc, ∀ p < np, pointPos b.nc np k c p < v.len := by
    intro k hk c hc p hp
    have := enc_lt (enc_lt hk hc) hp
    unfold pointPos
    have e : np * b.nc * b.qComp em = b.qComp em * b.nc * np := by ring
    omega
  have key : Sets (toPoints b em np x co junk) v.len (fun y => ∃ k < b.qComp em, ∃ c < b.nc, ∃ p < np, y = pointPos b.nc np k c p) g := by
    rcases hem with rfl | rfl
    · have h1 : b.qComp .interp = 1 := by simp [Bas.qComp, hH]
      simp only [h1] at hg hlt ⊢
      refine (Sets.loop (S := fun p y => ∃ c < b.nc, y = c * np + p) (g := g) (fun p hp => ?_)).congr ?_ (fun _ _ => rfl)
      · refine evalPoint_ok (fun _ => false) _ _ hd hQ hp hx hco ?_ ?_
        · intro c hc
          have := hlt 0 (by omega) c hc p hp
          unfold pointPos at this; rwa [Nat.zero_mul, Nat.zero_add] at this
        · intro c hc
          have := hg 0 (by omega) c hc p hp
          unfold pointPos at this; rwa [Nat.zero_mul, Nat.zero_add] at this
      · intro y
        constructor
        · rintro ⟨p, hp, c, hc, rfl⟩
          exact ⟨0, by omega, c, hc, p, hp, by unfold pointPos; ring⟩
        · rintro ⟨k, hk, c, hc, p, hp, rfl⟩
          have : k = 0 := by omega
          subst this
          exact ⟨p, hp, c, hc, by unfold pointPos; ring⟩
    · have h1 : b.qComp .grad = b.dim := rfl
      simp only [h1] at hg hlt ⊢
      refine (Sets.loop (S := fun p y => ∃ k < b.dim, ∃ c < b.nc, y = pointPos b.nc np k c p) (g := g) (fun p hp =>
        Sets.loop (S := fun k y => ∃ c < b.nc, y = pointPos b.nc np k c p) (g := g) (fun k hk => ?_))).congr ?_ (fun _ _ => rfl)
      · refine evalPoint_ok _ _ _ hd hQ hp hx hco (fun c hc => hlt k hk c hc p hp) ?_
        intro c hc
        refine (hg k hk c hc p hp).trans ?_
        have : along .grad k = fun d => decide (k = d) := by funext d; simp [along]
        rw [this]
      · intro y
        constructor
        · rintro ⟨p, hp, k, hk, c, hc, rfl⟩
          exact ⟨k, hk, c, hc, p, hp, rfl⟩
        · rintro ⟨k, hk, c, hc, p, hp, rfl⟩
          exact ⟨p, hp, k, hk, c, hc, rfl⟩
  obtain ⟨v', e, h1, h2, h3⟩ := key v rfl
  refine ⟨v', e, h1, fun k hk c hc p hp => ?_, fun i hi => h3 i ?_⟩
  · rw [h2 _ ⟨k, hk, c, hc, p, hp, rfl⟩, hg k hk c hc p hp]
  · rintro ⟨k, hk, c, hc, p, hp, rfl⟩
    have := enc_lt (enc_lt hk hc) hp
    unfold pointPos at hi
    have e : np * b.nc * b.qComp em = b.qComp em * b.nc * np := by ring
    omega

theorem fromPoints_ok {b : Bas K} {em : EMode} (hem : em = .interp ∨ em = .grad) (hH : b.isH1 = true) {np : Nat} {x u co : Buf K}
    (junk : Nat → Nat → Nat → Nat → K) (hd : 0 < b.dim) (hQ : 2 ≤ b.Q1) (hx : np * b.dim ≤ x.len) (hco : co.len = b.coefs)
    (hu : np * b.nc * b.qComp em ≤ u.len) :
    ∃ co', fromPoints b em np x u junk co = .ok co' ∧ co'.len = b.coefs ∧
      (0 < np → ∀ c < b.nc, ∀ l < b.Q1 ^ b.dim, co'.val (c * b.Q1 ^ b.dim + l) =
        ∑ p ∈ range np, ∑ k ∈ range (b.qComp em), wU b np x (along em k) p l * u.val (pointPos b.nc np k c p)) ∧
      (np = 0 → co' = co) := by
  have hlt : ∀ k < b.qComp em, ∀ c < b.nc, ∀ p < np, pointPos b.nc np k c p < u.len := by
    intro k hk c hc p hp
    have := enc_lt (enc_lt hk hc) hp
    unfold pointPos
    have e : np * b.nc * b.qComp em = b.qComp em * b.nc * np := by ring
    omega
  have h0 : np = 0 → fromPoints b em np x u junk co = .ok co := by
    rintro rfl
    rcases hem with rfl | rfl <;> rfl
  suffices h : ∃ co', fromPoints b em np x u junk co = .ok co' ∧ co'.len = b.coefs ∧
      (0 < np → ∀ c < b.nc, ∀ l < b.Q1 ^ b.dim, co'.val (c * b.Q1 ^ b.dim + l) =
        ∑ p ∈ range np, ∑ k ∈ range (b.qComp em), wU b np x (along em k) p l * u.val (pointPos b.nc np k c p)) by
    obtain ⟨co', e, h1, h2⟩ := h
    refine ⟨co', e, h1, h2, fun hn => ?_⟩
    rw [h0 hn] at e
    injection e with e
    exact e.symm
  rcases hem with rfl | rfl
  · have h1 : b.qComp .interp = 1 := by simp [Bas.qComp, hH]
    simp only [h1] at hlt ⊢
    have ha : along .interp 0 = fun _ => false := by funext d; simp [along]
    refine loop_inv (n := np) (s := co) (fun t (co' : Buf K) => co'.len = b.coefs ∧
      (0 < t → ∀ c < b.nc, ∀ l < b.Q1 ^ b.dim, co'.val (c * b.Q1 ^ b.dim + l) =
        ∑ p ∈ range t, ∑ k ∈ range 1, wU b np x (along .interp k) p l * u.val (pointPos b.nc np k c p)))
      ⟨hco, by omega⟩ ?_
    intro p hp co1 ⟨g1, g2⟩
    obtain ⟨co2, e, f1, f2⟩ := gatherPoint_ok (x := x) (u := u) (fun _ => false) (fun c => c * np + p) (decide (0 < p)) (junk p 0) hd hQ hp hx g1
      (fun c hc => by have := hlt 0 (by omega) c hc p hp; unfold pointPos at this; rwa [Nat.zero_mul, Nat.zero_add] at this)
    refine ⟨co2, e, f1, fun _ c hc l hl => ?_⟩
    rw [f2 c hc l hl, sum_range_succ]
    congr 1
    · by_cases hp0 : 0 < p
      · simp only [hp0, decide_true, if_true]; exact g2 hp0 c hc l hl
      · have : p = 0 := by omega
        subst this
        simp
    · rw [sum_range_one, ha, show pointPos b.nc np 0 c p = c * np + p by unfold pointPos; ring]
  · have h1 : b.qComp .grad = b.dim := rfl
    simp only [h1] at hlt ⊢
    have ha : ∀ k, along .grad k = fun d => decide (k = d) := fun k => by funext d; simp [along]
    refine loop_inv (n := np) (s := co) (fun t (co' : Buf K) => co'.len = b.coefs ∧
      (0 < t → ∀ c < b.nc, ∀ l < b.Q1 ^ b.dim, co'.val (c * b.Q1 ^ b.dim + l) =
        ∑ p ∈ range t, ∑ k ∈ range b.dim, wU b np x (along .grad k) p l * u.val (pointPos b.nc np k c p)))
      ⟨hco, by omega⟩ ?_
    intro p hp co1 ⟨g1, g2⟩
    have key := loop_inv (n := b.dim) (body := fun pass co => gatherPoint b np p x u (fun d => decide (pass = d))
        (fun c => (pass * b.nc + c) * np + p) (decide (0 < p) || (decide (p = 0) && decide (0 < pass))) (junk p pass) co) (s := co1)
      (fun t (co' : Buf K) => co'.len = b.coefs ∧ (0 < p ∨ 0 < t → ∀ c < b.nc, ∀ l < b.Q1 ^ b.dim,
        co'.val (c * b.Q1 ^ b.dim + l) =
          ∑ p ∈ range p, ∑ k ∈ range b.dim, wU b np x (along .grad k) p l * u.val (pointPos b.nc np k c p) +
          ∑ k ∈ range t, wU b np x (along .grad k) p l * u.val (pointPos b.nc np k c p))) ?_ ?_
    · obtain ⟨co2, e, f1, f2⟩ := key
      refine ⟨co2, e, f1, fun _ c hc l hl => ?_⟩
      rw [f2 (Or.inr hd) c hc l hl, sum_range_succ]
    · refine ⟨g1, fun hp0 c hc l hl => ?_⟩
      rw [g2 (by omega) c hc l hl, sum_range_zero, add_zero]
    · intro k hk co2 ⟨f1, f2⟩
      obtain ⟨co3, e, r1, r2⟩ := gatherPoint_ok (x := x) (u := u) (fun d => decide (k = d)) (fun c => (k * b.nc + c) * np + p)
        (decide (0 < p) || (decide (p = 0) && decide (0 < k))) (junk p k) hd hQ hp hx f1 (fun c hc => hlt k hk c hc p hp)
      refine ⟨co3, e, r1, fun _ c hc l hl => ?_⟩
      rw [r2 c hc l hl, sum_range_succ, ← add_assoc, ha k]
      congr 1
      by_cases hf : 0 < p ∨ 0 < k
      · rw [if_pos, f2 hf c hc l hl]
        rcases Nat.eq_zero_or_pos p with h | h
        · subst h
          have : 0 < k := by omega
          simp [this]
        · simp [h]
      · have h1 : p = 0 := by omega
        have h2 : k = 0 := by omega
        subst h1 h2
        simp

end Basis
end Verif
