import Verif.Operator.FdmAlgebra

/-!
# Element inverses by fast diagonalisation: what the loops compute

All statements are about calls that succeed.
-/

set_option linter.unusedSectionVars false

namespace Verif
namespace Operator

open Finset
open Restriction (Rstr RData Made)
open Basis (Bas EMode fdiv coord coord_lt)

theorem rd_inv {α : Type _} {b : Buf α} {i : Nat} {x : α} (h : b.rd i = .ok x) : i < b.len ∧ x = b.val i := by
  unfold Buf.rd at h
  split at h
  · rename_i hh; cases h; exact ⟨hh, rfl⟩
  · cases h

theorem wr_inv {α : Type _} {b b' : Buf α} {i : Nat} {x : α} (h : b.wr i x = .ok b') :
    i < b.len ∧ b' = ⟨b.len, fun j => if j = i then x else b.val j⟩ := by
  by_cases hh : i < b.len
  · rw [Buf.wr_lt hh] at h; cases h; exact ⟨hh, rfl⟩
  · unfold Buf.wr at h
    rw [if_neg hh] at h; cases h

variable {K : Type} [Field K] [LinearOrder K]

theorem fdiv_inv {x y z : K} (h : fdiv x y = .ok z) : y ≠ 0 ∧ z = x / y := by
  unfold fdiv at h
  split at h
  · cases h
  · rename_i hh; cases h; exact ⟨hh, rfl⟩

/-- An invariant of a loop that succeeds. -/
theorem loop_pres {σ : Type _} {n : Nat} {body : Nat → σ → Res σ} {s s' : σ} (I : Nat → σ → Prop) (h0 : I 0 s)
    (hs : ∀ i < n, ∀ s s', I i s → body i s = .ok s' → I (i + 1) s') (h : loop n body s = .ok s') : I n s' := by
  induction n generalizing s' with
  | zero => cases h; exact h0
  | succ n ih =>
    rw [loop_succ] at h
    obtain ⟨s1, e1, e2⟩ := Res.bind_eq_ok.1 h
    exact hs n (by omega) s1 s' (ih (fun i hi => hs i (by omega)) e1) e2

theorem floop_sum {n : Nat} {body : Nat → K → Res K} {s r : K} {t : Nat → K}
    (hs : ∀ i < n, ∀ s s', body i s = .ok s' → s' = s + t i) (h : loop n body s = .ok r) : r = s + ∑ i ∈ range n, t i := by
  refine loop_pres (fun i x => x = s + ∑ k ∈ range i, t k) (by simp) (fun i hi x x' hx e => ?_) h
  rw [hs i hi x x' e, hx, sum_range_succ, add_assoc]

/-- `f` changes only the positions `S`, to values allowed by `R`. -/
def Fills (f : Buf K → Res (Buf K)) (S : Nat → Prop) (R : Nat → K → Prop) : Prop :=
  ∀ m m', f m = .ok m' → m'.len = m.len ∧ (∀ x, S x → R x (m'.val x)) ∧ ∀ x, ¬ S x → m'.val x = m.val x

theorem fills_loop {n : Nat} {f : Nat → Buf K → Res (Buf K)} {S : Nat → Nat → Prop} {R : Nat → K → Prop}
    (h : ∀ i < n, Fills (f i) (S i) R) : Fills (fun m => loop n f m) (fun x => ∃ i < n, S i x) R := by
  intro m m' e
  have := loop_pres (fun k b => b.len = m.len ∧ (∀ x, (∃ i < k, S i x) → R x (b.val x)) ∧ ∀ x, (¬ ∃ i < k, S i x) → b.val x = m.val x)
    ⟨rfl, fun x ⟨i, hi, _⟩ => absurd hi (by omega), fun _ _ => rfl⟩ (fun k hk b b' hb eb => ?_) e
  · exact this
  · obtain ⟨h1, h2, h3⟩ := h k hk b b' eb
    obtain ⟨g1, g2, g3⟩ := hb
    refine ⟨by rw [h1, g1], fun x hx => ?_, fun x hx => ?_⟩
    · by_cases hS : S k x
      · exact h2 x hS
      · rw [h3 x hS]
        obtain ⟨i, hi, hx⟩ := hx
        refine g2 x ⟨i, ?_, hx⟩
        rcases Nat.lt_succ_iff_lt_or_eq.1 hi with h | rfl
        · exact h
        · exact absurd hx hS
    · have hS : ¬ S k x := fun hh => hx ⟨k, by omega, hh⟩
      rw [h3 x hS]
      exact g3 x fun ⟨i, hi, hh⟩ => hx ⟨i, by omega, hh⟩

theorem fills_wr {g : Res K} {pos : Nat} {R : Nat → K → Prop} (h : ∀ y, g = .ok y → R pos y) :
    Fills (fun m => g >>= fun y => m.wr pos y) (fun x => x = pos) R := by
  intro m m' e
  obtain ⟨y, e1, e2⟩ := Res.bind_eq_ok.1 e
  obtain ⟨_, rfl⟩ := wr_inv e2
  exact ⟨rfl, fun x hx => by subst hx; dsimp only; rw [if_pos rfl]; exact h y e1, fun x hx => by dsimp only; rw [if_neg hx]⟩

theorem Fills.eq {f f' : Buf K → Res (Buf K)} {S : Nat → Prop} {R : Nat → K → Prop} (h : Fills f S R) (hf : ∀ m, f' m = f m) :
    Fills f' S R := fun m m' e => h m m' (by rw [← hf]; exact e)

/-- A nested loop that stores computed values at distinct places. -/
theorem fill2 {n k : Nat} {f : Nat → Nat → Buf K → Res (Buf K)} {g : Nat → Nat → Res K} {pos : Nat → Nat → Nat}
    (hf : ∀ i < n, ∀ j < k, ∀ m, f i j m = g i j >>= fun x => m.wr (pos i j) x)
    (hinj : ∀ i < n, ∀ j < k, ∀ i' < n, ∀ j' < k, pos i j = pos i' j' → i = i' ∧ j = j') {m m' : Buf K}
    (e : loop n (fun i m => loop k (f i) m) m = .ok m') :
    m'.len = m.len ∧ ∀ i < n, ∀ j < k, g i j = .ok (m'.val (pos i j)) := by
  have := fills_loop (n := n) (f := fun i m => loop k (f i) m) (S := fun i x => ∃ j < k, x = pos i j)
    (R := fun x y => ∀ i < n, ∀ j < k, x = pos i j → g i j = .ok y) (fun i hi => fills_loop fun j hj =>
      (fills_wr (g := g i j) (pos := pos i j) fun y hy i' hi' j' hj' he => by
        obtain ⟨rfl, rfl⟩ := hinj i hi j hj i' hi' j' hj' he
        exact hy).eq (hf i hi j hj)) m m' e
  exact ⟨this.1, fun i hi j hj => this.2.1 _ ⟨i, hi, j, hj, rfl⟩ i hi j hj rfl⟩

theorem fenc_inj {P i j i' j' : Nat} (hi : i < P) (hi' : i' < P) (h : i + j * P = i' + j' * P) : i = i' ∧ j = j' := by
  have h1 : (i + j * P) % P = i := by rw [Nat.add_mul_mod_self_right, Nat.mod_eq_of_lt hi]
  have h2 : (i' + j' * P) % P = i' := by rw [Nat.add_mul_mod_self_right, Nat.mod_eq_of_lt hi']
  have hii : i = i' := by rw [← h1, h, h2]
  subst hii
  exact ⟨rfl, Nat.eq_of_mul_eq_mul_right (by omega : 0 < P) (by omega)⟩

theorem gram_inv {A w : Buf K} {P Q : Nat} {m m' : Buf K} (e : gram A w P Q m = .ok m') :
    m'.len = m.len ∧ ∀ i < P, ∀ j < P, m'.val (i + j * P) = quad1 A w P Q i j := by
  unfold gram at e
  obtain ⟨h1, h2⟩ := fill2 (pos := fun i j => i + j * P) (fun i _ j _ m => rfl) (fun i hi j hj i' hi' j' hj' h => fenc_inj hi hi' h) e
  refine ⟨h1, fun i hi j hj => ?_⟩
  have := floop_sum (t := fun k => A.val (k * P + i) * w.val k * A.val (k * P + j)) (fun k hk s s' hs => ?_) (h2 i hi j hj)
  · rw [this, zero_add]; rfl
  · obtain ⟨a, ea, hs⟩ := Res.bind_eq_ok.1 hs
    obtain ⟨c, ec, hs⟩ := Res.bind_eq_ok.1 hs
    obtain ⟨b, eb, hs⟩ := Res.bind_eq_ok.1 hs
    rw [(rd_inv ea).2, (rd_inv ec).2, (rd_inv eb).2] at hs
    cases hs; rfl

theorem massLaplace_inv {A G w : Buf K} {P Q dim : Nat} {M L : Buf K} (e : buildMassLaplace A G w P Q dim = .ok (M, L)) :
    M.len = P * P ∧ L.len = P * P ∧ (∀ i < P, ∀ j < P, M.val (i + j * P) = quad1 A w P Q i j) ∧
      ∀ i < P, ∀ j < P, L.val (i + j * P) = quadLap G w P Q dim i j := by
  unfold buildMassLaplace at e
  obtain ⟨m, em, e⟩ := Res.bind_eq_ok.1 e
  obtain ⟨l, el, e⟩ := Res.bind_eq_ok.1 e
  obtain ⟨l', el', e⟩ := Res.bind_eq_ok.1 e
  cases e
  obtain ⟨a1, a2⟩ := gram_inv em
  obtain ⟨b1, b2⟩ := gram_inv el
  have h := loop_pres (fun k b => b.len = P * P ∧ ∀ i < P, ∀ j < P, b.val (i + j * P) =
      quad1 G w P Q i j + if i = j ∧ i < k then perturbation dim else 0) ⟨b1, fun i hi j hj => by simp [b2 i hi j hj]⟩
    (fun k hk b b' hb eb => ?_) el'
  · refine ⟨a1, h.1, a2, fun i hi j hj => ?_⟩
    rw [h.2 i hi j hj]
    unfold quadLap
    congr 1
    by_cases hij : i = j
    · rw [if_pos ⟨hij, hi⟩, if_pos hij]
    · rw [if_neg (fun h => hij h.1), if_neg hij]
  · unfold Buf.addAt at eb
    obtain ⟨y, ey, eb⟩ := Res.bind_eq_ok.1 eb
    obtain ⟨_, rfl⟩ := rd_inv ey
    obtain ⟨_, rfl⟩ := wr_inv eb
    refine ⟨hb.1, fun i hi j hj => ?_⟩
    dsimp only
    by_cases hx : i = k ∧ j = k
    · obtain ⟨h1, h2⟩ := hx
      rw [h1, h2, if_pos (by ring), if_pos ⟨rfl, by omega⟩, show k + P * k = k + k * P by ring, hb.2 k hk k hk, if_neg (by omega), add_zero]
    · rw [if_neg (fun h => hx (by rw [show k + P * k = k + k * P by ring] at h; exact fenc_inj hi hk h)), hb.2 i hi j hj]
      congr 1
      by_cases h1 : i = j ∧ i < k
      · rw [if_pos h1, if_pos ⟨h1.1, by omega⟩]
      · rw [if_neg h1, if_neg (fun h => by omega)]

theorem fdmInterp_inv {X t : Buf K} {P : Nat} (e : fdmInterp X P = .ok t) :
    t.len = P * P ∧ ∀ i < P, ∀ j < P, t.val (j * P + i) = X.val (i * P + j) := by
  unfold fdmInterp at e
  obtain ⟨h1, h2⟩ := fill2 (pos := fun i j => i + j * P) (fun i _ j _ m => rfl) (fun i hi j hj i' hi' j' hj' h => fenc_inj hi hi' h) e
  refine ⟨h1, fun i hi j hj => ?_⟩
  have := (rd_inv (h2 i hi j hj)).2
  rw [Nat.add_comm, this, Nat.add_comm]

/-- The average that is computed. -/
theorem elemAvg_inv {b w : Buf K} {bound : K} {Q cc ni e : Nat} {z : K} (h : elemAvg b w bound Q cc ni e = .ok z) :
    z = average (fun q i => b.val (q + i * Q + e * (Q * cc))) w.val bound Q ni ∧
      (0 < Q → 0 < ni → ∀ q < Q, ∀ i < ni, q + i * Q + e * (Q * cc) < b.len) := by
  unfold elemAvg at h
  obtain ⟨s, es, h⟩ := Res.bind_eq_ok.1 h
  let x : Nat → Nat → K := fun q i => b.val (q + i * Q + e * (Q * cc))
  have hstep : ∀ q i, ∀ s s' : K × Nat, avgStep b w bound Q cc q i e s = .ok s' →
      q + i * Q + e * (Q * cc) < b.len ∧ s'.1 = s.1 + (if bound < |x q i| then x q i / w.val q else 0) ∧
        s'.2 = s.2 + (if bound < |x q i| then 1 else 0) := by
    intro q i s s' h
    unfold avgStep at h
    obtain ⟨y, ey, h⟩ := Res.bind_eq_ok.1 h
    obtain ⟨hl, rfl⟩ := rd_inv ey
    split at h
    · rename_i hb
      obtain ⟨c, ec, h⟩ := Res.bind_eq_ok.1 h
      obtain ⟨_, rfl⟩ := rd_inv ec
      obtain ⟨d, ed, h⟩ := Res.bind_eq_ok.1 h
      obtain ⟨_, rfl⟩ := fdiv_inv ed
      cases h
      exact ⟨hl, by rw [if_pos hb], by rw [if_pos hb]⟩
    · rename_i hb
      cases h
      exact ⟨hl, by rw [if_neg hb, add_zero], by rw [if_neg hb, add_zero]⟩
  have hrow := loop_pres (n := Q) (fun k (s : K × Nat) =>
      s.1 = ∑ q ∈ range k, ∑ i ∈ range ni, (if bound < |x q i| then x q i / w.val q else 0) ∧
      s.2 = ∑ q ∈ range k, ∑ i ∈ range ni, (if bound < |x q i| then 1 else 0) ∧
      ∀ q < k, ∀ i < ni, q + i * Q + e * (Q * cc) < b.len) ⟨by simp, by simp, fun q hq => absurd hq (by omega)⟩
    (fun q hq s s' hs e1 => by
      have := loop_pres (n := ni) (fun k (t : K × Nat) =>
          t.1 = s.1 + ∑ i ∈ range k, (if bound < |x q i| then x q i / w.val q else 0) ∧
          t.2 = s.2 + ∑ i ∈ range k, (if bound < |x q i| then 1 else 0) ∧
          ∀ i < k, q + i * Q + e * (Q * cc) < b.len) ⟨by simp, by simp, fun i hi => absurd hi (by omega)⟩
        (fun i hi t t' ht e2 => by
          obtain ⟨g1, g2, g3⟩ := hstep q i t t' e2
          refine ⟨by rw [g2, ht.1, sum_range_succ, add_assoc], by rw [g3, ht.2.1, sum_range_succ, add_assoc], fun i' hi' => ?_⟩
          rcases Nat.lt_succ_iff_lt_or_eq.1 hi' with h | rfl
          · exact ht.2.2 i' h
          · exact g1) e1
      refine ⟨by rw [this.1, hs.1, sum_range_succ], by rw [this.2.1, hs.2.1, sum_range_succ], fun q' hq' i hi => ?_⟩
      rcases Nat.lt_succ_iff_lt_or_eq.1 hq' with h | rfl
      · exact hs.2.2 q' h i hi
      · exact this.2.2 i hi) es
  refine ⟨?_, fun _ _ => hrow.2.2⟩
  have hc : s.2 = counted x bound Q ni := hrow.2.1
  show z = average x w.val bound Q ni
  unfold average
  rw [hc] at h
  split at h
  · rename_i h0; cases h; rw [if_pos h0]
  · rename_i h0
    rw [if_neg h0, (fdiv_inv h).2, hrow.1]

theorem elemAvgs_inv {b w a : Buf K} {bound : K} {Q cc ni ne : Nat} (h : elemAvgs b w bound Q cc ni ne = .ok a) :
    a.len = ne ∧ ∀ e < ne, elemAvg b w bound Q cc ni e = .ok (a.val e) := by
  unfold elemAvgs at h
  have := fills_loop (n := ne) (S := fun e x => x = e) (R := fun x y => elemAvg b w bound Q cc ni x = .ok y)
    (fun e he => fills_wr fun y hy => hy) _ _ h
  exact ⟨this.1, fun e he => this.2.1 e ⟨e, he, rfl⟩⟩

theorem fdmDiag_inv {interp grad : Bool} {dim P n : Nat} {lam : Buf K} {x : K} (h : fdmDiag interp grad dim P n lam = .ok x) :
    x = (if interp then 1 else 0) + (if grad then 1 else 0) * eigSum lam.val P dim n := by
  unfold fdmDiag at h
  cases grad
  · cases h; simp
  · simp only [if_true] at h
    rw [floop_sum (t := fun d => lam.val (coord P d n)) (fun d hd s s' hs => ?_) h]
    · simp [eigSum]
    · obtain ⟨l, el, hs⟩ := Res.bind_eq_ok.1 hs
      obtain ⟨_, rfl⟩ := rd_inv el
      cases hs; rfl

theorem fdmDiagonal_inv {interp grad : Bool} {dim P nc N : Nat} {eps : K} {lam f : Buf K}
    (h : fdmDiagonal interp grad dim P nc N eps lam = .ok f) : f.len = nc * N ∧ ∀ c < nc, ∀ n < N, f.val (c * N + n) =
      clampTo ((N : K) * eps) ((if interp then 1 else 0) + (if grad then 1 else 0) * eigSum lam.val P dim n) := by
  unfold fdmDiagonal at h
  obtain ⟨h1, h2⟩ := fill2 (pos := fun c n => c * N + n) (g := fun c n => fdmDiag interp grad dim P n lam >>= fun x =>
      .ok (clampTo ((N : K) * eps) x)) (fun i _ j _ m => by
        cases fdmDiag interp grad dim P j lam <;> rfl)
    (fun i hi j hj i' hi' j' hj' h => by
      have := fenc_inj hj hj' (by omega : j + i * N = j' + i' * N)
      exact ⟨this.2, this.1⟩) h
  refine ⟨h1, fun c hc n hn => ?_⟩
  obtain ⟨x, ex, hx⟩ := Res.bind_eq_ok.1 (h2 c hc n hn)
  rw [← fdmDiag_inv ex]
  exact (Res.ok.inj hx).symm

theorem fdmScale_inv {avg diag v : Buf K} {ne nc N : Nat} (h : fdmScale avg diag ne nc N = .ok v) :
    v.len = ne * nc * N ∧ ∀ e < ne, ∀ c < nc, ∀ n < N, avg.val e * diag.val (c * N + n) ≠ 0 ∧
      v.val ((e * nc + c) * N + n) = 1 / (avg.val e * diag.val (c * N + n)) := by
  unfold fdmScale at h
  have key := fills_loop (n := ne) (f := fun e v => loop nc (fun c v => loop N (fun n (v : Buf K) => do
    let a ← avg.rd e
    let x ← diag.rd (c * N + n)
    let z ← fdiv 1 (a * x)
    v.wr ((e * nc + c) * N + n) z) v) v) (S := fun e x => ∃ c < nc, ∃ n < N, x = (e * nc + c) * N + n)
    (R := fun x y => ∀ e < ne, ∀ c < nc, ∀ n < N, x = (e * nc + c) * N + n → avg.val e * diag.val (c * N + n) ≠ 0 ∧
      y = 1 / (avg.val e * diag.val (c * N + n))) (fun e he => fills_loop fun c hc => fills_loop fun n hn =>
      (fills_wr (g := do
          let a ← avg.rd e
          let x ← diag.rd (c * N + n)
          fdiv 1 (a * x)) fun y hy e' he' c' hc' n' hn' hx => by
        obtain ⟨hn2, h2⟩ := fenc_inj hn hn' (by omega : n + (e * nc + c) * N = n' + (e' * nc + c') * N)
        obtain ⟨hc2, he2⟩ := fenc_inj hc hc' (by omega : c + e * nc = c' + e' * nc)
        subst hn2 hc2 he2
        obtain ⟨a, ea, hy⟩ := Res.bind_eq_ok.1 hy
        obtain ⟨x, ex, hy⟩ := Res.bind_eq_ok.1 hy
        obtain ⟨_, rfl⟩ := rd_inv ea
        obtain ⟨_, rfl⟩ := rd_inv ex
        exact fdiv_inv hy).eq (fun m => by
          cases avg.rd e with
          | ok a => cases diag.rd (c * N + n) <;> rfl
          | err _ => rfl
          | ub => rfl)) _ _ h
  exact ⟨key.1, fun e he c hc n hn => key.2.1 _ ⟨e, he, c, hc, n, hn, rfl⟩ e he c hc n hn rfl⟩

end Operator
end Verif
