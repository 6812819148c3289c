import Verif.Gpu.BasisNonTensor

/-!
# The kernel for weights of a tensor basis on every schedule (helper lemmas)
-/

namespace Verif.Gpu
open Finset (range)
open Verif.Basis (digit_lo)

variable {α : Type} [CommRing α]

theorem inB_nat {len : Arr → Nat} {a : Arr} {i : Nat} (h : i < len a) : InB len a ((i : Nat) : Int) :=
  ⟨Int.natCast_nonneg i, by omega⟩

/-- The product of the 1D weights at the point of an entry. -/
def wRes (dim Q1 : Nat) (s : Vals α) (i : Nat) : α := ∏ d ∈ range dim, s (.table 0) (i / Q1 ^ d % Q1)

/-- The entries thread `t` of block `b` writes; `K` of them. -/
def wOwn (K J Q1 ne b t : Nat) (a : Arr) (i : Nat) : Prop :=
  a = .v ∧ b < ne ∧ ∃ k < K, i = ((b * K + k) * J + t / Q1) * Q1 + t % Q1

theorem weight_frame {dim Q1 ne K J : Nat} {m : Mem α} (hQ : 0 < Q1) (hJ : 0 < J) (hN : Q1 ^ dim = K * J * Q1)
    (hp : ∀ b < ne, ∀ t < Q1 * J, Piece (wOwn K J Q1 ne b t) roUT m.len (setV (wRes (α := α) dim Q1))
      (weightKernel dim Q1 ne b t)) :
    Runs ne (Q1 * J) (launch (weightKernel dim Q1 ne) m) fun s =>
      (∀ e < ne, ∀ q < Q1 ^ dim, s .v (e * Q1 ^ dim + q) = ∏ d ∈ range dim, m.val (.table 0) (q / Q1 ^ d % Q1)) ∧
      (∀ i, ne * Q1 ^ dim ≤ i → s .v i = m.val .v i) ∧ s .u = m.val .u := by
  refine runs_pieces (Nat.mul_pos hQ hJ) (wOwn K J Q1 ne) roUT (setV (wRes dim Q1)) hp
    (fun b hb t ht b' hb' t' ht' a i h h' => ?_) (fun b hb t ht a i h hr => ?_)
    fun s h1 h2 => ⟨fun e he q hq => ?_, fun i hi => ?_, funext fun i => ?_⟩
  · obtain ⟨-, -, k, hk, e1⟩ := h
    obtain ⟨-, -, k', hk', e2⟩ := h'
    obtain ⟨hx, hz⟩ := thread_dec ht
    obtain ⟨hx', hz'⟩ := thread_dec ht'
    have h := e1.symm.trans e2
    have g1 := congrArg (· % Q1) h
    have g2 := congrArg (· / Q1 % J) h
    have g3 := congrArg (· / Q1 / J / K) h
    simp only [mod_enc hx, mod_enc hx', div_enc hx, div_enc hx', mod_enc hz, mod_enc hz', div_enc hz, div_enc hz',
      div_enc hk, div_enc hk'] at g1 g2 g3
    exact ⟨g3, thread_inj g1 g2⟩
  · obtain ⟨rfl, -⟩ := h
    rcases hr with h | ⟨j, h⟩ <;> cases h
  · rw [hN] at hq
    obtain ⟨hd1, hd2⟩ := dec_lt hq
    obtain ⟨hd3, hd4⟩ := dec_lt hd1
    have ht : q / Q1 % J * Q1 + q % Q1 < Q1 * J := by
      rw [Nat.mul_comm Q1]
      exact enc_lt hd4 hd2
    rw [h1 e he (q / Q1 % J * Q1 + q % Q1) ht .v _ ⟨rfl, he, q / Q1 / J, hd3, ?_⟩]
    · show wRes dim Q1 m.val _ = _
      unfold wRes
      exact Finset.prod_congr rfl fun d hd => by rw [digit_lo e q hQ (Finset.mem_range.mp hd)]
    · rw [div_enc hd2, mod_enc hd2, hN]
      have e1 := dec_eq q Q1
      have e2 := dec_eq (q / Q1) J
      calc e * (K * J * Q1) + q = e * (K * J * Q1) + ((q / Q1 / J * J + q / Q1 % J) * Q1 + q % Q1) := by rw [e2, e1]
        _ = _ := by ring
  · refine h2 .v i fun b hb t ht ⟨_, _, k, hk, e1⟩ => ?_
    obtain ⟨hx, hz⟩ := thread_dec ht
    have := enc_lt (enc_lt (enc_lt hb hk) hz) hx
    rw [hN, show ne * (K * J * Q1) = ne * K * J * Q1 by ring] at hi
    omega
  · exact h2 .u i fun b hb t ht h => by cases h.1

section
variable {Q1 ne b t : Nat} {len : Arr → Nat}

theorem weight_piece1 (hQ : 0 < Q1) (ht : Q1 ≤ len (.table 0)) (hv : ne * Q1 ≤ len .v) (hb : b < ne) (htt : t < Q1 * 1) :
    Piece (wOwn 1 1 Q1 ne b t) roUT len (setV (wRes 1 Q1)) (weightKernel (α := α) 1 Q1 ne b t) := by
  have hx : t % Q1 < Q1 := Nat.mod_lt _ hQ
  have hz : t / Q1 = 0 := Nat.div_eq_of_lt (by omega)
  have hlt := enc_lt hb hx
  unfold weightKernel
  simp only [if_true, hx, hb, and_self]
  have hpos : ((b * 1 + 0) * 1 + t / Q1) * Q1 + t % Q1 = b * Q1 + t % Q1 := by rw [hz]; ring
  refine ⟨safeP_bind (safeP_rd ⟨by omega, by omega⟩ (.inr (.inr ⟨0, rfl⟩))) fun x =>
    safeP_wr ⟨by omega, by omega⟩ ⟨rfl, hb, 0, by omega, hpos.symm⟩, fun s =>
    ⟨_, big_bind (big_rd _ _ _) (big_wr _ _ _ _), ?_, fun a i h => upd_other _ _ ?_⟩⟩
  · rintro a i ⟨rfl, -, k, hk, e⟩
    obtain rfl : k = 0 := by omega
    rw [hpos] at e
    subst e
    show upd s .v (b * Q1 + t % Q1) (s (.table 0) (t % Q1)) .v (b * Q1 + t % Q1) = wRes 1 Q1 s _
    rw [upd_same]
    simp [wRes, mod_enc hx]
  · rintro ⟨rfl, e⟩
    exact h ⟨rfl, hb, 0, by omega, by rw [hpos]; exact e⟩

theorem weight_piece2 (hQ : 0 < Q1) (ht : Q1 ≤ len (.table 0)) (hv : ne * Q1 * Q1 ≤ len .v) (hb : b < ne)
    (htt : t < Q1 * Q1) :
    Piece (wOwn 1 Q1 Q1 ne b t) roUT len (setV (wRes 2 Q1)) (weightKernel (α := α) 2 Q1 ne b t) := by
  obtain ⟨hx, hz⟩ := thread_dec htt
  have hlt := enc_lt (enc_lt hb hz) hx
  unfold weightKernel
  simp only [hx, hz, hb, and_self, if_true, show ¬ (2 = 1) by omega, if_false]
  have hpos : ((b * 1 + 0) * Q1 + t / Q1) * Q1 + t % Q1 = (b * Q1 + t / Q1) * Q1 + t % Q1 := by ring
  refine ⟨safeP_bind (safeP_rd (inB_nat (by omega)) (.inr (.inr ⟨0, rfl⟩))) fun x =>
    safeP_bind (safeP_rd (inB_nat (by omega)) (.inr (.inr ⟨0, rfl⟩))) fun y =>
    safeP_wr (inB_nat (by omega)) ⟨rfl, hb, 0, by omega, hpos.symm⟩, fun s =>
    ⟨_, big_bind (big_rd _ _ _) (big_bind (big_rd _ _ _) (big_wr _ _ _ _)), ?_, fun a i h => upd_other _ _ ?_⟩⟩
  · rintro a i ⟨rfl, -, k, hk, e⟩
    obtain rfl : k = 0 := by omega
    rw [hpos] at e
    subst e
    show upd s .v ((b * Q1 + t / Q1) * Q1 + t % Q1) (s (.table 0) (t % Q1) * s (.table 0) (t / Q1)) .v _ = wRes 2 Q1 s _
    rw [upd_same]
    simp [wRes, Finset.prod_range_succ, mod_enc hx, div_enc hx, mod_enc hz]
  · rintro ⟨rfl, e⟩
    exact h ⟨rfl, hb, 0, by omega, by rw [hpos]; exact e⟩

theorem weight_piece3 (hQ : 0 < Q1) (ht : Q1 ≤ len (.table 0)) (hv : ne * Q1 * Q1 * Q1 ≤ len .v) (hb : b < ne)
    (htt : t < Q1 * Q1) :
    Piece (wOwn Q1 Q1 Q1 ne b t) roUT len (setV (wRes 3 Q1)) (weightKernel (α := α) 3 Q1 ne b t) := by
  obtain ⟨hx, hz⟩ := thread_dec htt
  unfold weightKernel
  simp only [hx, hz, hb, and_self, if_true, show ¬ (3 = 1) by omega, show ¬ (3 = 2) by omega, if_false]
  have hp := (piece_forIn (len := len) (ro := roUT) (res := setV (wRes (α := α) 3 Q1)) (l := List.range Q1)
    (body := fun k => (do
        let x ← rd (.table 0) ((t % Q1 : Nat) : Int)
        let y ← rd (.table 0) ((t / Q1 : Nat) : Int)
        let z ← rd (.table 0) ((k : Nat) : Int)
        wr .v ((((b * Q1 + k) * Q1 + t / Q1) * Q1 + t % Q1 : Nat) : Int) (x * y * z) : K α Unit))
    (o := fun k a i => a = .v ∧ i = ((b * Q1 + k) * Q1 + t / Q1) * Q1 + t % Q1) List.nodup_range
    (fun k hk => by
      have hk' := List.mem_range.mp hk
      have hlt := enc_lt (enc_lt (enc_lt hb hk') hz) hx
      exact safeP_bind (safeP_rd (inB_nat (by omega)) (.inr (.inr ⟨0, rfl⟩))) fun x =>
        safeP_bind (safeP_rd (inB_nat (by omega)) (.inr (.inr ⟨0, rfl⟩))) fun y =>
        safeP_bind (safeP_rd (inB_nat (by omega)) (.inr (.inr ⟨0, rfl⟩))) fun z =>
        safeP_wr (inB_nat (by omega)) ⟨k, hk, rfl, rfl⟩)
    (fun k hk s => by
      have hk' := List.mem_range.mp hk
      refine ⟨_, big_bind (big_rd _ _ _) (big_bind (big_rd _ _ _) (big_bind (big_rd _ _ _) (big_wr _ _ _ _))), ?_,
        fun a i h => upd_other _ _ h⟩
      rintro a i ⟨rfl, rfl⟩
      show upd s .v (((b * Q1 + k) * Q1 + t / Q1) * Q1 + t % Q1)
        (s (.table 0) (t % Q1) * s (.table 0) (t / Q1) * s (.table 0) k) .v _ = wRes 3 Q1 s _
      rw [upd_same]
      simp [wRes, Finset.prod_range_succ, mod_enc hx, div_enc hx, mod_enc hz, pow_two, ← Nat.div_div_eq_div_mul,
        div_enc hz, mod_enc hk'])
    (fun k hk k' hk' a i h h' => by
      have h := h.2.symm.trans h'.2
      have g := congrArg (· / Q1 / Q1 % Q1) h
      simpa only [div_enc hx, div_enc hz, mod_enc (List.mem_range.mp hk), mod_enc (List.mem_range.mp hk')] using g)
    (fun k hk a i h hr => by
      obtain ⟨rfl, -⟩ := h
      rcases hr with h | ⟨j, h⟩ <;> cases h)
    (fun k hk s s' h => setV_loc (f := wRes 3 Q1) (fun s s' h i => by
      unfold wRes
      exact Finset.prod_congr rfl fun d _ => h _ _ (.inr ⟨0, rfl⟩)) h)).congr (own' := wOwn Q1 Q1 Q1 ne b t) fun a i => by
        unfold wOwn
        constructor
        · rintro ⟨k, hk, rfl, e⟩
          exact ⟨rfl, hb, k, List.mem_range.mp hk, e⟩
        · rintro ⟨rfl, -, k, hk, e⟩
          exact ⟨k, List.mem_range.mpr hk, rfl, e⟩
  exact hp

end

/-- `Weight` of the tensor source in up to three dimensions. -/
theorem weight_runs {dim Q1 ne : Nat} {m : Mem α} (h0 : 0 < dim) (h3 : dim ≤ 3) (hQ : 0 < Q1)
    (ht : Q1 ≤ m.len (.table 0)) (hv : ne * Q1 ^ dim ≤ m.len .v) :
    Runs ne (Q1 * (if dim ≥ 2 then Q1 else 1)) (launch (weightKernel dim Q1 ne) m) fun s =>
      (∀ e < ne, ∀ q < Q1 ^ dim, s .v (e * Q1 ^ dim + q) = ∏ d ∈ range dim, m.val (.table 0) (q / Q1 ^ d % Q1)) ∧
      (∀ i, ne * Q1 ^ dim ≤ i → s .v i = m.val .v i) ∧ s .u = m.val .u := by
  obtain rfl | rfl | rfl : dim = 1 ∨ dim = 2 ∨ dim = 3 := by omega
  · exact weight_frame (K := 1) (J := 1) hQ Nat.one_pos (by ring) fun b hb t htt =>
      weight_piece1 hQ ht (by rwa [pow_one] at hv) hb htt
  · exact weight_frame (K := 1) (J := Q1) hQ hQ (by ring) fun b hb t htt =>
      weight_piece2 hQ ht (by rwa [pow_two, ← Nat.mul_assoc] at hv) hb htt
  · exact weight_frame (K := Q1) (J := Q1) hQ hQ (by ring) fun b hb t htt =>
      weight_piece3 hQ ht (by rwa [pow_succ, pow_two, ← Nat.mul_assoc, ← Nat.mul_assoc] at hv) hb htt

end Verif.Gpu
