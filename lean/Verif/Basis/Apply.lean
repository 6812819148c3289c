import Verif.Basis.Sweep
import Verif.Basis.Spec

/-!
# Application of a basis as multiplication by matrices (helper lemmas)
-/

namespace Verif
namespace Basis

open Finset
open Restriction (TMode sum_range_mul)
variable {α : Type} [CommRing α]

/-- What `CeedBasisCreateTensorH1` guarantees about its result, plus what the selection of the evaluation strategy relies
on: if the test for collocated points succeeded, the interpolation matrix is exactly the identity (the test allows
entries within 1e-14), and if a collocated gradient was computed, it maps interpolated values to gradients. -/
structure TensorOK (b : Bas α) : Prop where
  tensor : b.isTensor = true
  h1 : b.isH1 = true
  dim : 0 < b.dim
  nc : 0 < b.nc
  P1 : 0 < b.P1
  Q1 : 0 < b.Q1
  hP : b.P = b.P1 ^ b.dim
  hQ : b.Q = b.Q1 ^ b.dim
  interp1 : b.interp1.len = b.Q1 * b.P1
  grad1 : b.grad1.len = b.Q1 * b.P1
  weight : b.qWeight.len = b.Q1
  interp : b.interp = none
  grad : b.grad = none
  colloI : b.colloInterp = true → b.P1 = b.Q1 ∧ b.colloGrad = none ∧
    ∀ i < b.P1, ∀ j < b.P1, b.interp1.val (i * b.P1 + j) = if i = j then 1 else 0
  colloG : ∀ cg, b.colloGrad = some cg → b.P1 ≤ b.Q1 ∧ cg.len = b.Q1 * b.Q1 ∧
    ∀ q < b.Q1, ∀ p < b.P1, ∑ m ∈ range b.Q1, cg.val (q * b.Q1 + m) * b.interp1.val (m * b.P1 + p) =
      b.grad1.val (q * b.P1 + p)

theorem contr_congr {B C J : Nat} {T T' : Nat → Nat → α} {U U' : Nat → α} {a j c : Nat} (hj : j < J) (hc : c < C)
    (h : ∀ b < B, T j b * U ((a * B + b) * C + c) = T' j b * U' ((a * B + b) * C + c)) :
    contr B C J T U ((a * J + j) * C + c) = contr B C J T' U' ((a * J + j) * C + c) := by
  rw [contr_enc _ _ hj hc, contr_enc _ _ hj hc]
  exact Finset.sum_congr rfl (fun b hb => h b (mem_range.1 hb))

/-- Composition of two contractions is the contraction with the product. -/
theorem contr_comp {R P Q C : Nat} (K L : Nat → Nat → α) (U : Nat → α) {a q c : Nat} (hq : q < Q) (hc : c < C) :
    contr P C Q K (contr R C P L U) ((a * Q + q) * C + c) =
      contr R C Q (fun i j => ∑ l ∈ range P, K i l * L l j) U ((a * Q + q) * C + c) := by
  rw [contr_enc _ _ hq hc, contr_enc _ _ hq hc]
  rw [Finset.sum_congr rfl (fun l hl => by rw [contr_enc _ _ (mem_range.1 hl) hc, mul_sum])]
  rw [Finset.sum_comm]
  refine Finset.sum_congr rfl (fun r _ => ?_)
  rw [sum_mul]
  exact Finset.sum_congr rfl (fun l _ => by ring)

theorem contr_sum {B C J n : Nat} (T : Nat → Nat → α) (U : Nat → Nat → α) (y : Nat) :
    contr B C J T (fun i => ∑ d ∈ range n, U d i) y = ∑ d ∈ range n, contr B C J T (U d) y := by
  unfold contr
  rw [Finset.sum_comm]
  exact Finset.sum_congr rfl (fun b _ => by rw [mul_sum])

/-- A loop over slices of the output. -/
theorem slices_nt {nc P Q ne qc : Nat} {body : Nat → Buf α → Res (Buf α)} {K : Nat → Nat → Nat → α} {U : Nat → α}
    {v : Buf α}
    (hb : ∀ c < qc, ∀ w : Buf α, w.len = v.len → body c w = .ok (contrOut nc P ne Q (K c) false U w (c * (nc * Q * ne)))) :
    ∃ v', loop qc body v = .ok v' ∧ v'.len = v.len ∧
      (∀ c < qc, ∀ k < nc, ∀ q < Q, ∀ e < ne, v'.val (quadPos nc Q ne c k q e) =
        ∑ n ∈ range P, K c q n * U (nodePos P ne k n e)) ∧
      ∀ x, qc * nc * Q * ne ≤ x → v'.val x = v.val x := by
  have hS : Sets (loop qc body) v.len (fun x => ∃ c < qc, c * (nc * Q * ne) ≤ x ∧ x < c * (nc * Q * ne) + nc * Q * ne)
      (fun x => contr P ne Q (K (x / (nc * Q * ne))) U (x % (nc * Q * ne))) := by
    refine Sets.loop (fun c hc => ?_)
    intro w hw
    refine ⟨_, hb c hc w hw, hw, ?_, ?_⟩
    · intro x hx
      simp only [contrOut, if_pos hx, Bool.false_eq_true, if_false, zero_add]
      obtain ⟨y, rfl⟩ := Nat.exists_eq_add_of_le hx.1
      have hy : y < nc * Q * ne := by omega
      rw [div_enc hy, mod_enc hy, Nat.add_sub_cancel_left]
    · intro x hx
      simp only [contrOut, if_neg hx]
  obtain ⟨v', e1, l1, a1, c1⟩ := hS v rfl
  refine ⟨v', e1, l1, ?_, ?_⟩
  · intro c hc k hk q hq e he
    have hy : (k * Q + q) * ne + e < nc * Q * ne := enc_lt (enc_lt hk hq) he
    have hx : quadPos nc Q ne c k q e = c * (nc * Q * ne) + ((k * Q + q) * ne + e) := by unfold quadPos; ring
    rw [a1 _ ⟨c, hc, by omega, by omega⟩]
    simp only [hx]
    rw [div_enc hy, mod_enc hy, contr_enc _ _ hq he]
    rfl
  · intro x hx
    refine c1 x ?_
    rintro ⟨c, hc, h1, h2⟩
    have : c * (nc * Q * ne) + nc * Q * ne ≤ qc * nc * Q * ne := by
      calc c * (nc * Q * ne) + nc * Q * ne = (c + 1) * (nc * Q * ne) := by ring
        _ ≤ qc * (nc * Q * ne) := Nat.mul_le_mul_right _ hc
        _ = _ := by ring
    omega

/-- A loop over contractions into the same array. -/
theorem slices_t {nc P Q ne n : Nat} {body : Nat → Buf α → Res (Buf α)} {K : Nat → Nat → Nat → α} {U : Nat → Nat → α}
    {v : Buf α} (a : Bool) (hn : 0 < n)
    (hb : ∀ c < n, ∀ w : Buf α, w.len = v.len →
      body c w = .ok (contrOut nc Q ne P (K c) (a || decide (0 < c)) (U c) w 0)) :
    loop n body v = .ok ⟨v.len, fun x => if x < nc * P * ne then (if a then v.val x else 0) +
      ∑ c ∈ range n, contr Q ne P (K c) (U c) x else v.val x⟩ := by
  induction n with
  | zero => omega
  | succ n ih =>
    rcases Nat.eq_zero_or_pos n with h0 | h0
    · subst h0
      rw [loop_succ, loop_zero, Res.bind_ok, hb 0 (by omega) v rfl]
      simp [contrOut]
    · rw [loop_succ, ih h0 (fun c hc => hb c (by omega)), Res.bind_ok]
      generalize hw : (⟨v.len, _⟩ : Buf α) = w
      rw [hb n (by omega) w (by rw [← hw])]
      subst hw
      congr 1
      simp only [contrOut, h0, decide_true, Bool.or_true, if_true, Nat.zero_le, true_and, Nat.zero_add, Nat.sub_zero]
      congr 1
      funext x
      by_cases hx : x < nc * P * ne
      · simp only [if_pos hx, sum_range_succ]; ring
      · simp only [if_neg hx]

/-- The same when all steps accumulate. -/
theorem slices_add {nc P Q ne n : Nat} {body : Nat → Buf α → Res (Buf α)} {K : Nat → Nat → Nat → α}
    {U : Nat → Nat → α} {v : Buf α}
    (hb : ∀ c < n, ∀ w : Buf α, w.len = v.len → body c w = .ok (contrOut nc Q ne P (K c) true (U c) w 0)) :
    loop n body v = .ok ⟨v.len, fun x => if x < nc * P * ne then v.val x +
      ∑ c ∈ range n, contr Q ne P (K c) (U c) x else v.val x⟩ := by
  rcases Nat.eq_zero_or_pos n with h0 | h0
  · subst h0; simp
  · simpa using slices_t (nc := nc) (P := P) (Q := Q) (ne := ne) (K := K) (U := U) true h0 (by simpa using hb)

theorem fill_zero (v : Buf α) : ∃ z : Buf α, Buf.fill v.len 0 v = .ok z ∧ z.len = v.len ∧ ∀ x < v.len, z.val x = 0 := by
  obtain ⟨z, e, l, a, _⟩ := Sets.fill (n := v.len) (L := v.len) le_rfl (0 : α) (g := fun _ => 0) (fun _ _ => rfl) v rfl
  exact ⟨z, e, l, a⟩

/-! ## Non-tensor contraction -/

theorem strided_nt {nc P ne qc Q : Nat} {m u v : Buf α} (hm : qc * Q * P ≤ m.len) (hu : ne * nc * P ≤ u.len)
    (hv : ne * Q * nc * qc ≤ v.len) :
    ∃ v', contractStrided nc P ne qc Q m .noTranspose false u v = .ok v' ∧ v'.len = v.len ∧
      (∀ c < qc, ∀ k < nc, ∀ q < Q, ∀ e < ne, v'.val (quadPos nc Q ne c k q e) =
        ∑ n ∈ range P, m.val ((c * Q + q) * P + n) * u.val (nodePos P ne k n e)) ∧
      ∀ x, qc * nc * Q * ne ≤ x → v'.val x = v.val x := by
  unfold contractStrided
  have hv' : qc * nc * Q * ne ≤ v.len := by rw [show qc * nc * Q * ne = ne * Q * nc * qc by ring]; exact hv
  refine slices_nt (P := P) (K := fun c q n => m.val ((c * Q + q) * P + n)) (U := u.val) (fun c hc w hw => ?_)
  have h1 : c * P * Q + P * Q ≤ qc * Q * P := by
    calc c * P * Q + P * Q = (c + 1) * (Q * P) := by ring
      _ ≤ qc * (Q * P) := Nat.mul_le_mul_right _ hc
      _ = _ := by ring
  have h2 : c * nc * Q * ne + nc * Q * ne ≤ qc * nc * Q * ne := by
    calc c * nc * Q * ne + nc * Q * ne = (c + 1) * (nc * Q * ne) := by ring
      _ ≤ qc * (nc * Q * ne) := Nat.mul_le_mul_right _ hc
      _ = _ := by ring
  rw [contract_eq _ _ _ _ _ _ _ _ _ _ _ _ (by omega) (by rw [show nc * P * ne = ne * nc * P by ring]; omega)
    (by omega)]
  congr 1
  rw [show c * nc * Q * ne = c * (nc * Q * ne) by ring]
  refine contrOut_congr rfl (forall_enc (fun k hk q hq e he => contr_congr hq he (fun n hn => ?_)))
  simp only [tmat, Nat.zero_add]
  rw [show c * P * Q + (q * P + n) = (c * Q + q) * P + n by ring]

theorem strided_t {nc P ne qc Q : Nat} {m w v : Buf α} (hm : qc * Q * P ≤ m.len) (hw : ne * nc * Q * qc ≤ w.len)
    (hv : ne * nc * P ≤ v.len) :
    contractStrided nc P ne qc Q m .transpose true w v = .ok ⟨v.len, fun x => if x < nc * P * ne then v.val x +
      ∑ c ∈ range qc, contr Q ne P (fun n q => m.val ((c * Q + q) * P + n)) (fun i => w.val (c * (nc * Q * ne) + i)) x
      else v.val x⟩ := by
  unfold contractStrided
  refine slices_add (fun c hc z hz => ?_)
  have h1 : c * P * Q + P * Q ≤ qc * Q * P := by
    calc c * P * Q + P * Q = (c + 1) * (Q * P) := by ring
      _ ≤ qc * (Q * P) := Nat.mul_le_mul_right _ hc
      _ = _ := by ring
  have h2 : c * nc * Q * ne + nc * Q * ne ≤ ne * nc * Q * qc := by
    calc c * nc * Q * ne + nc * Q * ne = (c + 1) * (nc * Q * ne) := by ring
      _ ≤ qc * (nc * Q * ne) := Nat.mul_le_mul_right _ hc
      _ = _ := by ring
  rw [contract_eq _ _ _ _ _ _ _ _ _ _ _ _ (by rw [Nat.mul_comm Q]; omega) (by omega)
    (by rw [show nc * P * ne = ne * nc * P by ring]; omega)]
  congr 1
  rw [show c * nc * Q * ne = c * (nc * Q * ne) by ring]
  refine contrOut_congr rfl (forall_enc (fun k hk n hn e he => contr_congr hn he (fun q hq => ?_)))
  simp only [tmat]
  rw [show c * P * Q + (q * P + n) = (c * Q + q) * P + n by ring]

/-- The sum of contractions produced by the transpose is multiplication by columns. -/
theorem cols_eq {nc P ne Q qc : Nat} (M : Nat → α) (W : Nat → α) {k n e : Nat} (hn : n < P) (he : e < ne) :
    ∑ c ∈ range qc, contr Q ne P (fun n q => M ((c * Q + q) * P + n)) (fun i => W (c * (nc * Q * ne) + i))
      (nodePos P ne k n e) =
    ∑ c ∈ range qc, ∑ q ∈ range Q, M ((c * Q + q) * P + n) * W (quadPos nc Q ne c k q e) := by
  refine Finset.sum_congr rfl (fun c _ => ?_)
  unfold nodePos
  rw [contr_enc _ _ hn he]
  refine Finset.sum_congr rfl (fun q _ => ?_)
  congr 2
  unfold quadPos; ring

/-! ## Tensor bases -/

omit [CommRing α] in
theorem tmp_ok {b : Bas α} {ne P Q d : Nat} (h0 : 0 < d) (hd : d < b.dim) :
    b.nc * P ^ (b.dim - d) * Q ^ d * ne ≤ tmpSize b ne P Q := by
  unfold tmpSize
  obtain ⟨c, rfl⟩ : ∃ c, d = c + 1 := ⟨d - 1, by omega⟩
  generalize hM : (if P > Q then P else Q) = M
  have h1 : P ≤ M := by rw [← hM]; split <;> omega
  have h2 : Q ≤ M := by rw [← hM]; split <;> omega
  have h3 : P ^ (b.dim - (c + 1)) * Q ^ c ≤ M ^ (b.dim - 1) := by
    calc P ^ (b.dim - (c + 1)) * Q ^ c ≤ M ^ (b.dim - (c + 1)) * M ^ c :=
          Nat.mul_le_mul (Nat.pow_le_pow_left h1 _) (Nat.pow_le_pow_left h2 _)
      _ = M ^ (b.dim - 1) := by rw [← pow_add]; congr 1; omega
  calc b.nc * P ^ (b.dim - (c + 1)) * Q ^ (c + 1) * ne = ne * b.nc * Q * (P ^ (b.dim - (c + 1)) * Q ^ c) := by ring
    _ ≤ ne * b.nc * Q * M ^ (b.dim - 1) := Nat.mul_le_mul_left _ h3

/-- Entries of the 1D matrices. -/
def Bas.I1 (b : Bas α) (q p : Nat) : α := b.interp1.val (q * b.P1 + p)
def Bas.G1 (b : Bas α) (q p : Nat) : α := b.grad1.val (q * b.P1 + p)

/-- The full interpolation matrix. -/
def Bas.KI (b : Bas α) (q n : Nat) : α := kron (fun _ => b.I1) b.Q1 b.P1 b.dim q n

/-- The full gradient matrix in direction `c`. -/
def Bas.KG (b : Bas α) (c q n : Nat) : α := kron (fun i => if c = i then b.G1 else b.I1) b.Q1 b.P1 b.dim q n

omit [CommRing α] in
theorem tmat_nt (m : Buf α) (P Q q p : Nat) : tmat m 0 .noTranspose P Q q p = m.val (q * P + p) := by simp [tmat]
omit [CommRing α] in
theorem tmat_t (m : Buf α) (P Q q p : Nat) : tmat m 0 .transpose Q P p q = m.val (q * P + p) := by simp [tmat]

theorem contrOut_congrT {nc P ne Q : Nat} {K K' : Nat → Nat → α} {add : Bool} {U U' : Nat → α} {v : Buf α} {vo : Nat}
    (hU : ∀ i < nc * P * ne, U i = U' i) (hK : ∀ q < Q, ∀ n < P, K q n = K' q n) :
    contrOut nc P ne Q K add U v vo = contrOut nc P ne Q K' add U' v vo := by
  refine contrOut_congr rfl (forall_enc (fun k hk q hq e he => contr_congr hq he (fun n hn => ?_)))
  rw [hU _ (enc_lt (enc_lt hk hn) he), hK q hq n hn]

variable {b : Bas α}

theorem TensorOK.interp_nt (hb : TensorOK b) {junk : Nat → Nat → α} {ne : Nat} {u v : Buf α} {add : Bool}
    (hadd : b.colloInterp = true → add = false)
    (hu : ne * b.nc * b.P ≤ u.len) (hv : ne * b.nc * b.Q ≤ v.len) :
    tensorInterp b junk add ne .noTranspose u v = .ok (contrOut b.nc b.P ne b.Q b.KI add u.val v 0) := by
  have eP : b.nc * b.P * ne = ne * b.nc * b.P := by ring
  have eQ : b.nc * b.Q * ne = ne * b.nc * b.Q := by ring
  unfold tensorInterp
  by_cases hc : b.colloInterp = true
  · rw [if_pos hc, hadd hc]
    obtain ⟨hPQ, _, hI⟩ := hb.colloI hc
    have hPQ' : b.P = b.Q := by rw [hb.hP, hb.hQ, hPQ]
    unfold memcpy
    rw [if_pos ⟨hu, by rw [hPQ']; exact hv⟩]
    congr 1
    ext x
    · rfl
    simp only [contrOut, Nat.zero_le, true_and, Nat.sub_zero, Bool.false_eq_true, if_false, zero_add]
    by_cases hx : x < ne * b.nc * b.P
    · rw [if_pos hx, if_pos (by rw [eQ, ← hPQ']; exact hx)]
      have := forall_enc (A := b.nc) (J := b.P) (C := ne) (p := fun x => u.val x = contr b.P ne b.Q b.KI u.val x)
        (fun k hk q hq e he => by
          rw [← hPQ', contr_enc _ _ hq he]
          rw [Finset.sum_congr rfl (fun l hl => show _ =
            if q = l then u.val ((k * b.P + l) * ne + e) else 0 by
              have e1 := kron_id (N := b.P1) (dim := b.dim) b.I1 hI (q := q) (l := l) (by rw [← hb.hP]; exact hq)
                (by rw [← hb.hP]; exact mem_range.1 hl)
              unfold Bas.KI
              rw [← hPQ, e1]
              split <;> simp)]
          rw [Finset.sum_ite_eq]; simp [hq])
      exact this x (by rw [eP]; exact hx)
    · rw [if_neg hx, if_neg (by rw [eQ, ← hPQ']; exact hx)]
  · rw [if_neg hc]
    simp only
    rw [chain_eq hb.dim hb.P1 (fun d _ => by rw [hb.interp1, Nat.mul_comm]) (by rw [← hb.hP, Nat.zero_add, eP]; exact hu)
      (by rw [← hb.hQ, Nat.zero_add, eQ]; exact hv) (fun d h0 hd => tmp_ok h0 hd)]
    rw [← hb.hP, ← hb.hQ]
    congr 1
    refine contrOut_congrT (fun i _ => by simp) (fun q _ n _ => ?_)
    unfold Bas.KI
    congr 1
    funext i q p
    exact tmat_nt _ _ _ _ _

theorem TensorOK.interp_t (hb : TensorOK b) {junk : Nat → Nat → α} {ne : Nat} {w v : Buf α} {add : Bool}
    (hadd : b.colloInterp = true → add = false)
    (hw : ne * b.nc * b.Q ≤ w.len) (hv : ne * b.nc * b.P ≤ v.len) :
    tensorInterp b junk add ne .transpose w v =
      .ok (contrOut b.nc b.Q ne b.P (fun n q => b.KI q n) add w.val v 0) := by
  have eP : b.nc * b.P * ne = ne * b.nc * b.P := by ring
  have eQ : b.nc * b.Q * ne = ne * b.nc * b.Q := by ring
  by_cases hc : b.colloInterp = true
  · have hPQ : b.P = b.Q := by rw [hb.hP, hb.hQ, (hb.colloI hc).1]
    have h1 := hb.interp_nt (junk := junk) (ne := ne) (u := w) (v := v) hadd (by rw [hPQ]; exact hw)
      (by rw [← hPQ]; exact hv)
    have h2 : tensorInterp b junk add ne .transpose w v = tensorInterp b junk add ne .noTranspose w v := by
      unfold tensorInterp; rw [if_pos hc, if_pos hc]
    rw [h2, h1, hPQ]
    congr 1
    refine contrOut_congrT (fun i _ => rfl) (fun q hq n hn => ?_)
    obtain ⟨hPQ1, _, hI⟩ := hb.colloI hc
    unfold Bas.KI
    rw [← hPQ, hb.hP] at hq hn
    rw [← hPQ1, kron_id b.I1 hI hq hn, kron_id b.I1 hI hn hq]
    simp only [eq_comm]
  · unfold tensorInterp
    rw [if_neg hc]
    simp only
    rw [chain_eq hb.dim hb.Q1 (fun d _ => by rw [hb.interp1]) (by rw [← hb.hQ, Nat.zero_add, eQ]; exact hw)
      (by rw [← hb.hP, Nat.zero_add, eP]; exact hv) (fun d h0 hd => tmp_ok h0 hd)]
    rw [← hb.hP, ← hb.hQ]
    congr 1
    refine contrOut_congrT (fun i _ => by simp) (fun q _ n _ => ?_)
    unfold Bas.KI
    rw [← kron_transpose]
    congr 1
    funext i q p
    exact tmat_t _ _ _ _ _

theorem TensorOK.strideQ (hb : TensorOK b) {ne c L : Nat} (hc : c < b.dim) (hL : ne * b.Q * b.nc * b.dim ≤ L) :
    c * (b.nc * b.Q * ne) + b.nc * b.Q1 ^ b.dim * ne ≤ L := by
  rw [← hb.hQ]
  calc c * (b.nc * b.Q * ne) + b.nc * b.Q * ne = (c + 1) * (b.nc * b.Q * ne) := by ring
    _ ≤ b.dim * (b.nc * b.Q * ne) := Nat.mul_le_mul_right _ hc
    _ = ne * b.Q * b.nc * b.dim := by ring
    _ ≤ L := hL

/-- The three strategies for the gradient agree with the full matrix, one direction at a time. -/
theorem TensorOK.grad_nt (hb : TensorOK b) {junk : Nat → Nat → α} {ne : Nat} {u v : Buf α}
    (hu : ne * b.nc * b.P ≤ u.len) (hv : ne * b.Q * b.nc * b.dim ≤ v.len) :
    ∃ v', tensorGrad b junk false false ne .noTranspose u v = .ok v' ∧ v'.len = v.len ∧
      (∀ c < b.dim, ∀ k < b.nc, ∀ q < b.Q, ∀ e < ne, v'.val (quadPos b.nc b.Q ne c k q e) =
        ∑ n ∈ range b.P, b.KG c q n * u.val (nodePos b.P ne k n e)) ∧
      ∀ x, b.dim * b.nc * b.Q * ne ≤ x → v'.val x = v.val x := by
  have eP : b.nc * b.P * ne = ne * b.nc * b.P := by ring
  unfold tensorGrad
  simp only
  cases hcg : b.colloGrad with
  | some cg =>
    simp only
    obtain ⟨hPQ, hl, hG⟩ := hb.colloG cg hcg
    rw [chain_eq hb.dim hb.P1 (fun d _ => by rw [hb.interp1, Nat.mul_comm]) (by rw [← hb.hP, Nat.zero_add, eP]; exact hu)
      (by
        simp only [tmpSize, Nat.zero_add]
        rw [show (if b.P1 > b.Q1 then b.P1 else b.Q1) = b.Q1 by split <;> omega]
        apply le_of_eq
        obtain ⟨n, hn⟩ : ∃ n, b.dim = n + 1 := ⟨b.dim - 1, by have := hb.dim; omega⟩
        rw [hn, Nat.add_sub_cancel, pow_succ]; ring) (fun d h0 hd => tmp_ok h0 hd)]
    simp only [Res.bind_ok]
    rw [sweep_loop hb.Q1]
    refine slices_nt (P := b.P) (K := b.KG) (U := u.val) (fun c hc w hw => ?_)
    rw [dirStep_eq hc (by rw [hl]) (by
        simp only [contrOut, tmpSize, Nat.zero_add]
        rw [show (if b.P1 > b.Q1 then b.P1 else b.Q1) = b.Q1 by split <;> omega]
        apply le_of_eq
        obtain ⟨n, hn⟩ : ∃ n, b.dim = n + 1 := ⟨b.dim - 1, by have := hb.dim; omega⟩
        rw [hn, Nat.add_sub_cancel, pow_succ]; ring) (by rw [hw]; exact hb.strideQ hc hv)]
    rw [← hb.hQ]
    congr 1
    refine contrOut_congr rfl (forall_enc (fun k hk q hq e he => ?_))
    rw [contr_congr (T' := dirMat b.Q1 c (tmat cg 0 .noTranspose b.Q1 b.Q1))
      (U' := contr b.P ne b.Q b.KI u.val) hq he (fun l hl => by
        congr 1
        have : (k * b.Q + l) * ne + e < b.nc * b.Q * ne := enc_lt (enc_lt hk hl) he
        simp only [contrOut, Nat.zero_le, true_and, Bool.false_eq_true, if_false, zero_add,
          Nat.sub_zero]
        rw [if_pos this, ← hb.hP]
        refine contr_congr hl he (fun n _ => ?_)
        congr 1
        unfold Bas.KI
        congr 1
        funext i q p
        exact tmat_nt _ _ _ _ _)]
    rw [contr_comp _ _ _ hq he]
    refine contr_congr hq he (fun n hn => ?_)
    congr 1
    simp only [Bas.KI]
    rw [hb.hQ] at hq ⊢
    rw [dir_kron hb.P1 hc (tmat cg 0 .noTranspose b.Q1 b.Q1) b.I1 b.G1 (fun x hx p hp => by
      simp only [tmat_nt]; exact hG x hx p hp) hq]
    rfl
  | none =>
    simp only
    by_cases hci : b.colloInterp = true
    · simp only [hci, if_true]
      obtain ⟨hPQ, _, hI⟩ := hb.colloI hci
      have hPQ' : b.P = b.Q := by rw [hb.hP, hb.hQ, hPQ]
      rw [hPQ, sweep_loop hb.Q1]
      refine slices_nt (P := b.P) (K := b.KG) (U := u.val) (fun c hc w hw => ?_)
      rw [dirStep_eq hc (by rw [hb.grad1, hPQ]) (by rw [← hPQ, ← hb.hP, Nat.zero_add, eP]; exact hu)
        (by rw [hw]; exact hb.strideQ hc hv)]
      rw [← hb.hQ]
      simp only [Bool.false_and]
      rw [hPQ']
      congr 1
      refine contrOut_congrT (fun i _ => by simp) (fun q hq n hn => ?_)
      rw [hb.hQ] at hq hn
      have := dir_kron (l := n) hb.P1 hc (tmat b.grad1 0 .noTranspose b.Q1 b.Q1) b.I1 b.G1 (fun x hx p hp => by
        rw [Finset.sum_congr rfl (fun m hm => show _ =
          if m = p then tmat b.grad1 0 .noTranspose b.Q1 b.Q1 x m else 0 by
            have := hI m (by rw [hPQ]; exact mem_range.1 hm) p hp
            unfold Bas.I1
            rw [this]; split <;> simp), Finset.sum_ite_eq', if_pos (by rw [← hPQ]; simpa using hp), tmat_nt]
        unfold Bas.G1; rw [hPQ]) hq
      unfold Bas.KG
      rw [← this]
      rw [Finset.sum_congr rfl (fun m hm => show _ =
        if m = n then dirMat b.Q1 c (tmat b.grad1 0 .noTranspose b.Q1 b.Q1) q m else 0 by
          have := kron_id (N := b.Q1) (dim := b.dim) b.I1 (by rw [← hPQ]; exact hI) (mem_range.1 hm) hn
          rw [← hPQ] at this ⊢
          rw [this]; split <;> simp), Finset.sum_ite_eq', if_pos (by simpa using hn)]
    · simp only [if_neg hci]
      refine slices_nt (P := b.P) (K := b.KG) (U := u.val) (fun c hc w hw => ?_)
      rw [chain_eq hb.dim hb.P1 (fun d _ => by split <;> simp only [hb.interp1, hb.grad1, Nat.mul_comm, le_refl])
        (by rw [← hb.hP, Nat.zero_add, eP]; exact hu) (by rw [hw]; exact hb.strideQ hc hv) (fun d h0 hd => tmp_ok h0 hd)]
      rw [← hb.hP, ← hb.hQ]
      congr 1
      refine contrOut_congrT (fun i _ => by simp) (fun q hq n hn => ?_)
      unfold Bas.KG
      congr 1
      funext i q p
      rw [tmat_nt]
      split <;> rfl

theorem TensorOK.strideQ' (hb : TensorOK b) {ne c L : Nat} (hc : c < b.dim) (hL : ne * b.nc * b.Q * b.dim ≤ L) :
    c * (b.nc * b.Q * ne) + b.nc * b.Q1 ^ b.dim * ne ≤ L :=
  hb.strideQ hc (by rw [show ne * b.Q * b.nc * b.dim = ne * b.nc * b.Q * b.dim by ring]; exact hL)

theorem TensorOK.sizeQ (hb : TensorOK b) (ne : Nat) : tmpSize b ne b.Q1 b.Q1 = b.nc * b.Q * ne := by
  unfold tmpSize
  rw [if_neg (by omega), hb.hQ]
  obtain ⟨n, hn⟩ : ∃ n, b.dim = n + 1 := ⟨b.dim - 1, by have := hb.dim; omega⟩
  rw [hn, Nat.add_sub_cancel, pow_succ]; ring

theorem TensorOK.kg_collo (hb : TensorOK b) {cg : Buf α} (hcg : b.colloGrad = some cg) {c q n : Nat} (hc : c < b.dim)
    (hq : q < b.Q) :
    ∑ l ∈ range b.Q, dirMat b.Q1 c (fun x m => cg.val (x * b.Q1 + m)) q l * b.KI l n = b.KG c q n := by
  obtain ⟨_, _, hG⟩ := hb.colloG cg hcg
  unfold Bas.KI
  rw [hb.hQ] at hq ⊢
  exact dir_kron hb.P1 hc (fun x m => cg.val (x * b.Q1 + m)) b.I1 b.G1 hG hq

theorem TensorOK.kg_collocated (hb : TensorOK b) (hci : b.colloInterp = true) {c q n : Nat} (hc : c < b.dim)
    (hq : q < b.Q) (hn : n < b.Q) :
    b.KG c q n = dirMat b.Q1 c (fun x m => b.grad1.val (x * b.Q1 + m)) q n := by
  obtain ⟨hPQ, _, hI⟩ := hb.colloI hci
  rw [hb.hQ] at hq hn
  have := dir_kron (l := n) hb.P1 hc (fun x m => b.grad1.val (x * b.Q1 + m)) b.I1 b.G1 (fun x hx p hp => by
    rw [Finset.sum_congr rfl (fun m hm => show _ = if m = p then b.grad1.val (x * b.Q1 + m) else 0 by
        have := hI m (by rw [hPQ]; exact mem_range.1 hm) p hp
        unfold Bas.I1
        rw [this]; split <;> simp), Finset.sum_ite_eq', if_pos (by rw [← hPQ]; simpa using hp)]
    unfold Bas.G1; rw [hPQ]) hq
  unfold Bas.KG
  rw [← this]
  rw [Finset.sum_congr rfl (fun m hm => show _ =
    if m = n then dirMat b.Q1 c (fun x m => b.grad1.val (x * b.Q1 + m)) q m else 0 by
      have := kron_id (N := b.Q1) (dim := b.dim) b.I1 (by rw [← hPQ]; exact hI) (mem_range.1 hm) hn
      rw [← hPQ] at this ⊢
      rw [this]; split <;> simp), Finset.sum_ite_eq', if_pos (by simpa using hn)]

/-- The transpose of the gradient. With collocated points the first direction overwrites the output, even for
`CeedBasisApplyAdd`. -/
theorem TensorOK.grad_t (hb : TensorOK b) {junk : Nat → Nat → α} {ne : Nat} {w v : Buf α} {aa : Bool}
    (hw : ne * b.nc * b.Q * b.dim ≤ w.len) (hv : ne * b.nc * b.P ≤ v.len) :
    tensorGrad b junk aa true ne .transpose w v = .ok ⟨v.len, fun x => if x < b.nc * b.P * ne then
      (if b.colloInterp then 0 else v.val x) + ∑ c ∈ range b.dim, contr b.Q ne b.P (fun n q => b.KG c q n)
        (fun i => w.val (c * (b.nc * b.Q * ne) + i)) x else v.val x⟩ := by
  have eP : b.nc * b.P * ne = ne * b.nc * b.P := by ring
  unfold tensorGrad
  simp only
  cases hcg : b.colloGrad with
  | some cg =>
    simp only
    obtain ⟨hPQ, hl, hG⟩ := hb.colloG cg hcg
    have hci : b.colloInterp = false := by
      cases h : b.colloInterp with
      | false => rfl
      | true => have := (hb.colloI h).2.1; rw [this] at hcg; cases hcg
    rw [sweep_loop hb.Q1]
    rw [slices_t (nc := b.nc) (P := b.Q) (Q := b.Q) (ne := ne)
      (K := fun c => dirMat b.Q1 c (fun m x => cg.val (x * b.Q1 + m)))
      (U := fun c i => w.val (c * (b.nc * b.Q * ne) + i)) false hb.dim (fun c hc z hz => by
        rw [dirStep_eq hc (by rw [hl]) (hb.strideQ' hc hw) (by
          rw [hz, hb.sizeQ, ← hb.hQ, Nat.zero_add])]
        rw [← hb.hQ]
        congr 1
        refine contrOut_congrT (fun i _ => rfl) (fun q _ n _ => ?_)
        congr 1
        funext m x
        exact tmat_t _ _ _ _ _)]
    simp only [Res.bind_ok]
    rw [chain_eq hb.dim hb.Q1 (fun d _ => by rw [hb.interp1]) (by
        simp only
        rw [hb.sizeQ, ← hb.hQ, Nat.zero_add]) (by rw [← hb.hP, Nat.zero_add, eP]; exact hv) (fun d h0 hd => by
        refine le_trans ?_ (hb.sizeQ ne).ge
        calc b.nc * b.Q1 ^ (b.dim - d) * b.P1 ^ d * ne ≤ b.nc * b.Q1 ^ (b.dim - d) * b.Q1 ^ d * ne :=
              Nat.mul_le_mul_right _ (Nat.mul_le_mul_left _ (Nat.pow_le_pow_left hPQ _))
          _ = b.nc * b.Q * ne := by
              rw [hb.hQ, mul_assoc b.nc, ← pow_add]; congr 3; omega)]
    rw [← hb.hP, ← hb.hQ]
    congr 1
    simp only [contrOut, Nat.zero_le, true_and, Nat.zero_add, Nat.sub_zero, if_true, Bool.false_eq_true, if_false, hci]
    congr 1
    funext x
    by_cases hx : x < b.nc * b.P * ne
    · rw [if_pos hx, if_pos hx]
      congr 1
      revert x
      refine forall_enc (fun k hk n hn e he => ?_)
      rw [contr_congr (T' := fun n q => b.KI q n) (U' := fun i => ∑ c ∈ range b.dim, contr b.Q ne b.Q
          (dirMat b.Q1 c (fun m x => cg.val (x * b.Q1 + m))) (fun i => w.val (c * (b.nc * b.Q * ne) + i)) i)
        hn he (fun q hq => by
          rw [if_pos (enc_lt (enc_lt hk hq) he), zero_add]
          congr 1
          unfold Bas.KI
          rw [← kron_transpose]
          congr 1
          funext i q p
          exact tmat_t _ _ _ _ _)]
      rw [contr_sum]
      refine Finset.sum_congr rfl (fun c hc => ?_)
      rw [contr_comp _ _ _ hn he]
      refine contr_congr hn he (fun q hq => ?_)
      congr 1
      rw [← hb.kg_collo hcg (mem_range.1 hc) hq]
      refine Finset.sum_congr rfl (fun l _ => ?_)
      rw [mul_comm, ← dirMat_transpose]
    · rw [if_neg hx, if_neg hx]
  | none =>
    simp only
    by_cases hci : b.colloInterp = true
    · simp only [hci, if_true]
      obtain ⟨hPQ, _, hI⟩ := hb.colloI hci
      have hPQ' : b.P = b.Q := by rw [hb.hP, hb.hQ, hPQ]
      rw [sweep_loop hb.Q1]
      refine slices_t (nc := b.nc) (P := b.P) (Q := b.Q) (ne := ne) (K := fun c n q => b.KG c q n)
        (U := fun c i => w.val (c * (b.nc * b.Q * ne) + i)) false hb.dim (fun c hc z hz => ?_)
      rw [dirStep_eq hc (by rw [hb.grad1, hPQ]) (hb.strideQ' hc hw)
        (by rw [← hPQ, ← hb.hP, Nat.zero_add, eP, hz]; exact hv)]
      rw [← hb.hQ, hPQ']
      simp only [Bool.true_and, Bool.false_or]
      congr 1
      refine contrOut_congrT (fun i _ => rfl) (fun n hn q hq => ?_)
      rw [hb.kg_collocated hci hc hq hn, ← dirMat_transpose]
      congr 1
      funext x m
      exact tmat_t _ _ _ _ _
    · simp only [if_neg hci]
      refine slices_add (nc := b.nc) (P := b.P) (Q := b.Q) (ne := ne) (K := fun c n q => b.KG c q n)
        (U := fun c i => w.val (c * (b.nc * b.Q * ne) + i)) (fun c hc z hz => ?_)
      rw [chain_eq hb.dim hb.Q1 (fun d _ => by split <;> simp only [hb.interp1, hb.grad1, le_refl])
        (hb.strideQ' hc hw) (by rw [← hb.hP, Nat.zero_add, eP, hz]; exact hv) (fun d h0 hd => tmp_ok h0 hd)]
      rw [← hb.hP, ← hb.hQ]
      congr 1
      refine contrOut_congrT (fun i _ => rfl) (fun n hn q hq => ?_)
      unfold Bas.KG
      rw [← kron_transpose]
      congr 1
      funext i q p
      rw [tmat_t]
      split <;> rfl

/-! ## The full matrices -/

/-- `f` multiplies entry `j` by `y j`. -/
def Muls (f : Buf α → Res (Buf α)) (L : Nat) (y : Nat → α) : Prop :=
  ∀ v : Buf α, v.len = L → ∃ v', f v = .ok v' ∧ v'.len = L ∧ ∀ j < L, v'.val j = v.val j * y j

theorem Muls.loop {n : Nat} {body : Nat → Buf α → Res (Buf α)} {L : Nat} {y : Nat → Nat → α}
    (h : ∀ i < n, Muls (body i) L (y i)) : Muls (Verif.loop n body) L (fun j => ∏ i ∈ range n, y i j) := by
  intro v hv
  obtain ⟨v', e, l, a⟩ := loop_inv (n := n) (body := body) (s := v)
    (fun i w => w.len = L ∧ ∀ j < L, w.val j = v.val j * ∏ i ∈ range i, y i j) ⟨hv, by simp⟩ (fun i hi w hw => by
      obtain ⟨w', e, l, a⟩ := h i hi w hw.1
      refine ⟨w', e, l, fun j hj => ?_⟩
      rw [a j hj, hw.2 j hj, prod_range_succ]; ring)
  exact ⟨v', e, l, a⟩

theorem Muls.one {L i : Nat} (hi : i < L) {t : Res α} {x : α} (ht : t = .ok x) :
    Muls (fun m : Buf α => do
      let z ← m.rd i
      let y ← t
      m.wr i (z * y)) L (fun j => if j = i then x else 1) := by
  intro v hv
  subst hv ht
  refine ⟨⟨v.len, fun j => if j = i then v.val i * x else v.val j⟩,
    by simp only [Buf.rd_lt hi, Res.bind_ok]; exact Buf.wr_lt hi _, rfl, fun j _ => ?_⟩
  by_cases h : j = i
  · subst h; simp
  · simp [h]

theorem prod_at {n : Nat} {f : Nat → α} {i : Nat} (hi : i < n) (h : ∀ k < n, k ≠ i → f k = 1) :
    ∏ k ∈ range n, f k = f i :=
  Finset.prod_eq_single i (fun k hk hne => h k (mem_range.1 hk) hne) (fun h => absurd (mem_range.2 hi) h)

theorem prod_enc2 {Q P : Nat} (Y : Nat → Nat → α) {q n : Nat} (hq : q < Q) (hn : n < P) :
    ∏ q' ∈ range Q, ∏ n' ∈ range P, (if q * P + n = q' * P + n' then Y q' n' else 1) = Y q n := by
  have key : ∀ q' n', n' < P → q * P + n = q' * P + n' → q = q' ∧ n = n' := fun q' n' hn' e => by
    have h1 := congrArg (· / P) e; have h2 := congrArg (· % P) e
    simp only [div_enc hn, div_enc hn', mod_enc hn, mod_enc hn'] at h1 h2
    exact ⟨h1, h2⟩
  rw [prod_at hq (fun q' _ hne => Finset.prod_eq_one (fun n' hn' => if_neg (fun e =>
    hne (key q' n' (mem_range.1 hn') e).1.symm)))]
  rw [prod_at hn (fun n' hn' hne => if_neg (fun e => hne (key q n' hn' e).2.symm)), if_pos rfl]

omit [CommRing α] in
theorem digit_bound {b : Bas α} (h1 : 0 < b.P1) (h2 : 0 < b.Q1) (node qpt d : Nat) :
    qpt / b.Q1 ^ d % b.Q1 * b.P1 + node / b.P1 ^ d % b.P1 < b.Q1 * b.P1 :=
  enc_lt (Nat.mod_lt _ h2) (Nat.mod_lt _ h1)

theorem getInterp_tensor (hb : TensorOK b) : ∃ m, getInterp b = .ok (some m) ∧ m.len = b.Q * b.P ∧
    ∀ q < b.Q, ∀ n < b.P, m.val (q * b.P + n) = b.KI q n := by
  unfold getInterp
  rw [hb.interp]
  simp only [hb.tensor, if_true]
  obtain ⟨z, e, l, a, _⟩ := Sets.fill (n := b.Q * b.P) (L := b.Q * b.P) le_rfl (1 : α) (g := fun _ => 1)
    (fun _ _ => rfl) ⟨b.Q * b.P, fun _ => 0⟩ rfl
  rw [e, Res.bind_ok]
  obtain ⟨m, e2, l2, a2⟩ := Muls.loop (n := b.dim) (L := b.Q * b.P) (fun d _ => Muls.loop (n := b.Q) (fun qpt hq =>
    Muls.loop (n := b.P) (fun node hn => Muls.one (enc_lt hq hn)
      (Buf.rd_lt (b := b.interp1) (i := qpt / b.Q1 ^ d % b.Q1 * b.P1 + node / b.P1 ^ d % b.P1)
        (by rw [hb.interp1]; exact digit_bound hb.P1 hb.Q1 node qpt d))))) z l
  refine ⟨m, ?_, l2, fun q hq n hn => ?_⟩
  · rw [e2]; rfl
  · rw [a2 _ (enc_lt hq hn), a _ (enc_lt hq hn), one_mul]
    unfold Bas.KI kron
    refine Finset.prod_congr rfl (fun d _ => ?_)
    rw [prod_enc2 (fun q n => b.interp1.val (q / b.Q1 ^ d % b.Q1 * b.P1 + n / b.P1 ^ d % b.P1)) hq hn]
    rfl

theorem getGrad_tensor (hb : TensorOK b) : ∃ m, getGrad b = .ok (some m) ∧ m.len = b.dim * b.Q * b.P ∧
    ∀ c < b.dim, ∀ q < b.Q, ∀ n < b.P, m.val ((c * b.Q + q) * b.P + n) = b.KG c q n := by
  unfold getGrad
  rw [hb.grad]
  simp only [hb.tensor, if_true]
  obtain ⟨z, e, l, a, _⟩ := Sets.fill (n := b.dim * b.Q * b.P) (L := b.dim * b.Q * b.P) le_rfl (1 : α) (g := fun _ => 1)
    (fun _ _ => rfl) ⟨b.dim * b.Q * b.P, fun _ => 0⟩ rfl
  rw [e, Res.bind_ok]
  obtain ⟨m, e2, l2, a2⟩ := Muls.loop (n := b.dim) (L := b.dim * b.Q * b.P) (fun d _ => Muls.loop (n := b.dim)
    (fun i hi => Muls.loop (n := b.Q) (fun qpt hq =>
    Muls.loop (n := b.P) (fun node hn => Muls.one (enc_lt (enc_lt hi hq) hn)
      (show (if i = d then b.grad1 else b.interp1).rd (qpt / b.Q1 ^ d % b.Q1 * b.P1 + node / b.P1 ^ d % b.P1) =
          .ok (if i = d then b.G1 (qpt / b.Q1 ^ d % b.Q1) (node / b.P1 ^ d % b.P1)
            else b.I1 (qpt / b.Q1 ^ d % b.Q1) (node / b.P1 ^ d % b.P1)) by
        have := digit_bound hb.P1 hb.Q1 node qpt d
        split
        · exact Buf.rd_lt (by rw [hb.grad1]; exact this)
        · exact Buf.rd_lt (by rw [hb.interp1]; exact this)))))) z l
  refine ⟨m, ?_, l2, fun c hc q hq n hn => ?_⟩
  · rw [e2]; rfl
  · have hx := enc_lt (enc_lt hc hq) hn
    rw [a2 _ hx, a _ hx, one_mul]
    unfold Bas.KG kron
    refine Finset.prod_congr rfl (fun d _ => ?_)
    rw [prod_at hc (fun c' _ hne => Finset.prod_eq_one (fun q' hq' => Finset.prod_eq_one (fun n' hn' => if_neg (fun e => by
      have hn'' := mem_range.1 hn'
      have hq'' := mem_range.1 hq'
      have h1 := congrArg (· / b.P / b.Q) e
      simp only [div_enc hn, div_enc hn'', div_enc hq, div_enc hq''] at h1
      exact hne h1.symm))))]
    have hq2 : c * b.Q + q < b.dim * b.Q := enc_lt hc hq
    rw [prod_at hq (fun q' hq' hne => Finset.prod_eq_one (fun n' hn' => if_neg (fun e => by
      have hn'' := mem_range.1 hn'
      have h1 := congrArg (· / b.P) e
      simp only [div_enc hn, div_enc hn''] at h1
      omega)))]
    rw [prod_at hn (fun n' hn' hne => if_neg (fun e => by omega)), if_pos rfl]
    simp only [eq_comm (a := c)]
    split <;> rfl

end Basis
end Verif
