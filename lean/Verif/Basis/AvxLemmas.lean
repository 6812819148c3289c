import Verif.Basis.Avx
import Verif.Basis.Contract

/-!
# Tiles of registers (helper lemmas)
-/

namespace Verif

open Finset

section
variable {α : Type _} [AddCommMonoid α]

open Classical in
/-- `G` on the entries in `S`, zero elsewhere. -/
noncomputable def ind (S : Nat → Prop) (G : Nat → α) : Nat → α := fun x => if S x then G x else 0

theorem ind_pos {S : Nat → Prop} {G : Nat → α} {x : Nat} (h : S x) : ind S G x = G x := if_pos h
theorem ind_neg {S : Nat → Prop} {G : Nat → α} {x : Nat} (h : ¬ S x) : ind S G x = 0 := if_neg h

/-- Disjoint contributions of the same function. -/
theorem Adds.loopU {n : Nat} {body : Nat → Buf α → Res (Buf α)} {L : Nat} {S : Nat → Nat → Prop} {T : Nat → Prop}
    {G : Nat → α} (h : ∀ i < n, Adds (body i) L (ind (S i) G))
    (hd : ∀ i < n, ∀ i' < n, ∀ x, S i x → S i' x → i = i') (hT : ∀ x, T x ↔ ∃ i < n, S i x) :
    Adds (Verif.loop n body) L (ind T G) := by
  refine (Adds.loop h).congr fun x => ?_
  by_cases hx : T x
  · obtain ⟨i, hi, hs⟩ := (hT x).1 hx
    rw [ind_pos hx, Finset.sum_eq_single i, ind_pos hs]
    · intro i' hi' hne
      rw [ind_neg fun hs' => hne (hd i' (mem_range.1 hi') i hi x hs' hs)]
    · intro hh; exact absurd (mem_range.2 hi) hh
  · rw [ind_neg hx]
    refine Finset.sum_eq_zero fun i hi => ?_
    rw [ind_neg fun hs => hx ((hT x).2 ⟨i, mem_range.1 hi, hs⟩)]

theorem Adds.seqU {f g : Buf α → Res (Buf α)} {L : Nat} {S S' T : Nat → Prop} {G : Nat → α}
    (hf : Adds f L (ind S G)) (hg : Adds g L (ind S' G))
    (hd : ∀ x, S x → S' x → False) (hT : ∀ x, T x ↔ S x ∨ S' x) :
    Adds (fun v => f v >>= g) L (ind T G) := by
  refine (hf.seq hg).congr fun x => ?_
  by_cases h1 : S x
  · rw [ind_pos h1, ind_neg (fun h => hd x h1 h), ind_pos ((hT x).2 (Or.inl h1)), add_zero]
  · by_cases h2 : S' x
    · rw [ind_neg h1, ind_pos h2, ind_pos ((hT x).2 (Or.inr h2)), zero_add]
    · rw [ind_neg h1, ind_neg h2, ind_neg (fun h => ((hT x).1 h).elim h1 h2), zero_add]

theorem Adds.noneU {L : Nat} {S : Nat → Prop} {G : Nat → α} (h : ∀ x, ¬ S x) :
    Adds (fun v : Buf α => Res.ok v) L (ind S G) :=
  Adds.skip.congr fun x => (ind_neg (h x)).symm

theorem Adds.congrU {f : Buf α → Res (Buf α)} {L : Nat} {S S' : Nat → Prop} {G G' : Nat → α}
    (hf : Adds f L (ind S G)) (hS : ∀ x, S x ↔ S' x) (hG : ∀ x, S x → G x = G' x) :
    Adds f L (ind S' G') :=
  hf.congr fun x => by
    by_cases h : S x
    · rw [ind_pos h, ind_pos ((hS x).1 h), hG x h]
    · rw [ind_neg h, ind_neg fun h' => h ((hS x).2 h')]

end

namespace Basis

open Restriction (TMode)

section
variable {α : Type _} [CommRing α]

omit [CommRing α] in
theorem loadu_lt {b : Buf α} {i : Nat} (h : i + 4 ≤ b.len) : loadu b i = .ok fun l => b.val (i + l.val) := if_pos h

omit [CommRing α] in
theorem tileLoad_eq {N n m : Nat} {pos : Nat → Nat → Nat} {junk : Nat → Reg α} {v : Buf α} (hN : n * m ≤ N)
    (hin : ∀ r < n, ∀ k < m, pos r k + 4 ≤ v.len) :
    ∃ vv, tileLoad N n m pos junk v = .ok vv ∧ vv.len = N ∧
      ∀ r < n, ∀ k < m, vv.val (r * m + k) = fun l => v.val (pos r k + l.val) := by
  have h : Sets (Verif.loop n (fun r vv => Verif.loop m (fun k vv => do
      let x ← loadu v (pos r k)
      vv.wr (r * m + k) x) vv)) N (fun i => ∃ r < n, ∃ k < m, i = r * m + k)
      (fun i l => v.val (pos (i / m) (i % m) + l.val)) := by
    refine Sets.loop fun r hr => Sets.loop fun k hk => ?_
    refine (Sets.wr (x := fun l : Fin 4 => v.val (pos r k + l.val))
      (by have := enc_lt hr hk; omega) ?_).of_eq fun vv _ => ?_
    · rw [div_enc hk, mod_enc hk]
    · rw [loadu_lt (hin r hr k hk)]; rfl
  obtain ⟨vv, e, l, a, -⟩ := h ⟨N, junk⟩ rfl
  refine ⟨vv, e, l, fun r hr k hk => ?_⟩
  rw [a _ ⟨r, hr, k, hk, rfl⟩]
  dsimp only
  rw [div_enc hk, mod_enc hk]

omit [CommRing α] in
theorem storeu_lt {b : Buf α} {i : Nat} {x : Reg α} (h : i + 4 ≤ b.len) : storeu b i x =
    .ok ⟨b.len, fun k => if h : i ≤ k ∧ k < i + 4 then x ⟨k - i, by omega⟩ else b.val k⟩ := if_pos h

/-- What a tile owns: rows of `w` entries at distance `S`. -/
def Owned (base S n w x : Nat) : Prop := base ≤ x ∧ x < base + n * S ∧ (x - base) % S < w

/-- Storing a tile whose registers hold the old entries and what is to be added to those the tile owns. Registers may reach
into the following rows; those entries are stored again by their own rows, or stay as they are. -/
theorem tileStore_eq {n m S base w : Nat} {pos : Nat → Nat → Nat} {vv : Buf (Reg α)} {v : Buf α} {G : Nat → α}
    (hN : n * m ≤ vv.len) (hpos : ∀ r < n, ∀ k < m, pos r k = base + r * S + k * 4)
    (hin : ∀ r < n, ∀ k < m, pos r k + 4 ≤ v.len) (hS : 0 < S) (hw : w ≤ S) (hm : w ≤ m * 4)
    (hvv : ∀ r < n, ∀ k < m, ∀ l : Fin 4, (vv.val (r * m + k)) l = v.val (pos r k + l.val) +
      if k * 4 + l.val < w then G (pos r k + l.val) else 0) :
    tileStore n m pos vv v = .ok ⟨v.len, fun x => v.val x + ind (Owned base S n w) G x⟩ := by
  let c : Nat → α := ind (Owned base S n w) G
  have hc : ∀ r < n, ∀ q < S, c (base + r * S + q) = if q < w then G (base + r * S + q) else 0 := by
    intro r hr q hq
    have h1 := enc_lt hr hq
    have h2 : base + r * S + q - base = r * S + q := by omega
    have h3 : Owned base S n w (base + r * S + q) ↔ q < w := by
      unfold Owned
      rw [h2, mod_enc hq]
      exact ⟨fun h => h.2.2, fun h => ⟨by omega, by omega, h⟩⟩
    by_cases hqw : q < w
    · rw [if_pos hqw]; exact ind_pos (h3.2 hqw)
    · rw [if_neg hqw]; exact ind_neg fun h => hqw (h3.1 h)
  have hlo : ∀ x, x < base → c x = 0 := fun x hx => ind_neg fun h => by have := h.1; omega
  have hhi : ∀ x, base + n * S ≤ x → c x = 0 := fun x hx => ind_neg fun h => by have := h.2.1; omega
  let I : Nat → Nat → Buf α → Prop := fun r k s => s.len = v.len ∧
    ∀ x, s.val x = v.val x + if x < base + r * S + min (k * 4) S then c x else 0
  obtain ⟨s, es, hs⟩ := loop_inv (n := n) (body := fun r v => Verif.loop m (fun k v => do
    let x ← vv.rd (r * m + k)
    storeu v (pos r k) x) v) (s := v) (fun r s => I r 0 s) (by
      refine ⟨rfl, fun x => ?_⟩
      by_cases hx : x < base + 0 * S + min (0 * 4) S
      · rw [if_pos hx, hlo x (by omega), add_zero]
      · rw [if_neg hx, add_zero]) (by
    intro r hr s hs
    obtain ⟨s', es, h1, h2⟩ := loop_inv (n := m) (body := fun k v => do
      let x ← vv.rd (r * m + k)
      storeu v (pos r k) x) (s := s) (fun k s => I r k s) hs (by
      intro k hk s hs
      rw [Buf.rd_lt (by have := enc_lt hr hk; omega), Res.bind_ok]
      have hb := hin r hr k hk
      rw [storeu_lt (by rw [hs.1]; exact hb)]
      refine ⟨_, rfl, hs.1, fun x => ?_⟩
      dsimp only
      rw [hpos r hr k hk]
      by_cases hx : base + r * S + k * 4 ≤ x ∧ x < base + r * S + k * 4 + 4
      · rw [dif_pos hx, hvv r hr k hk, hpos r hr k hk]
        dsimp only
        have hxx : base + r * S + k * 4 + (x - (base + r * S + k * 4)) = x := by omega
        rw [hxx]
        congr 1
        by_cases hq : x < base + r * S + S
        · have e := hc r hr (x - (base + r * S)) (by omega)
          have e' : base + r * S + (x - (base + r * S)) = x := by omega
          rw [e'] at e
          have e2 : k * 4 + (x - (base + r * S + k * 4)) = x - (base + r * S) := by omega
          rw [e2, if_pos (show x < base + r * S + min ((k + 1) * 4) S by omega), e]
        · rw [if_neg (by omega), if_neg (by omega)]
      · rw [dif_neg hx, hs.2 x]
        congr 1
        by_cases hq : x < base + r * S + min (k * 4) S
        · rw [if_pos hq, if_pos (by omega)]
        · rw [if_neg hq, if_neg (by omega)])
    refine ⟨s', es, h1, fun x => ?_⟩
    rw [h2 x]
    congr 1
    have hsm : (r + 1) * S = r * S + S := by ring
    by_cases hq : x < base + r * S + min (m * 4) S
    · rw [if_pos hq, if_pos (by omega)]
    · rw [if_neg hq]
      by_cases hq' : x < base + (r + 1) * S + min (0 * 4) S
      · rw [if_pos hq']
        have e := hc r hr (x - (base + r * S)) (by omega)
        have e' : base + r * S + (x - (base + r * S)) = x := by omega
        rw [e', if_neg (by omega)] at e
        exact e.symm
      · rw [if_neg hq'])
  unfold tileStore
  rw [es]
  congr 1
  obtain ⟨h1, h2⟩ := hs
  cases s with
  | mk len val =>
    dsimp only at h1 h2
    subst h1
    congr 1
    funext x
    rw [h2 x]
    congr 1
    by_cases hq : x < base + n * S + min (0 * 4) S
    · rw [if_pos hq]
    · rw [if_neg hq]; exact (hhi x (by omega)).symm

/-- A whole tile. -/
theorem tile_adds {N n m S base w L : Nat} {pos : Nat → Nat → Nat} {junk : Nat → Reg α}
    {acc : Buf (Reg α) → Res (Buf (Reg α))} {F : Nat → Reg α} {G : Nat → α}
    (hN : n * m ≤ N) (hacc : Adds acc N F) (hpos : ∀ r < n, ∀ k < m, pos r k = base + r * S + k * 4)
    (hin : ∀ r < n, ∀ k < m, pos r k + 4 ≤ L) (hS : 0 < S) (hw : w ≤ S) (hm : w ≤ m * 4)
    (hF : ∀ r < n, ∀ k < m, ∀ l : Fin 4, F (r * m + k) l =
      if k * 4 + l.val < w then G (base + r * S + (k * 4 + l.val)) else 0) :
    Adds (tile N n m pos junk acc) L (ind (Owned base S n w) G) := by
  intro v hv
  subst hv
  obtain ⟨vv, e, l, h⟩ := tileLoad_eq (junk := junk) hN hin
  unfold tile
  rw [e, Res.bind_ok, hacc vv l, Res.bind_ok, tileStore_eq (G := G) hN hpos hin hS hw hm]
  intro r hr k hk i
  dsimp only
  rw [Pi.add_apply, h r hr k hk, hF r hr k hk i]
  congr 1
  rw [hpos r hr k hk, Nat.add_assoc (base + r * S)]

end
end Basis
end Verif
