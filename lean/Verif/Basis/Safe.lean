import Verif.Basis.Lift

/-!
# Memory safety of basis application (helper lemmas)
-/

namespace Verif
namespace Basis

open Finset
open Restriction (TMode)
variable {α : Type} [CommRing α] {b : Bas α}

/-- Sizes of the arrays of a tensor basis; nothing about the values. -/
structure TensorShape (b : Bas α) : Prop where
  tensor : b.isTensor = true
  h1 : b.isH1 = true
  dim : 0 < b.dim
  P1 : 0 < b.P1
  Q1 : 0 < b.Q1
  hP : b.P = b.P1 ^ b.dim
  hQ : b.Q = b.Q1 ^ b.dim
  interp1 : b.interp1.len = b.Q1 * b.P1
  grad1 : b.grad1.len = b.Q1 * b.P1
  weight : b.qWeight.len = b.Q1
  colloI : b.colloInterp = true → b.P1 = b.Q1
  colloG : ∀ cg, b.colloGrad = some cg → b.P1 ≤ b.Q1 ∧ cg.len = b.Q1 * b.Q1

/-- Step of the transposed sweep through the collocated gradient. -/
def dirStep' (b : Bas α) (ne : Nat) (cg u : Buf α) (d : Nat) (v : Buf α) : Res (Buf α) :=
  dirStep b.dim b.nc ne b.Q1 cg .transpose (decide (0 < d)) u (d * (b.nc * b.Q * ne)) 0 d v

/-- `f` succeeds and keeps the length. -/
def Safe (f : Buf α → Res (Buf α)) (L : Nat) : Prop := ∀ v : Buf α, v.len = L → ∃ v', f v = .ok v' ∧ v'.len = L

omit [CommRing α] in
theorem Safe.loop {n L : Nat} {body : Nat → Buf α → Res (Buf α)} (h : ∀ i < n, Safe (body i) L) :
    Safe (Verif.loop n body) L := fun _ hv =>
  loop_inv (fun _ w => w.len = L) hv (fun i hi w hw => h i hi w hw)

theorem shape_of {near : α → Bool} {collo : Nat → Nat → Buf α → Buf α → Res (Buf α)} {dim nc P1 Q1 : Int}
    {i1 g1 w : Buf α} (hcollo : ∀ p q i g m, collo p q i g = .ok m → m.len = q * q)
    (h : createTensorH1 near collo dim nc P1 Q1 i1 g1 w = .ok b) : TensorShape b := by
  unfold createTensorH1 at h
  simp only [Res.bind_eq_ok, Res.check_eq_ok] at h
  obtain ⟨_, h1, _, h2, _, h3, _, h4, w', hw, i1', hi, g1', hg, ci, hci, cg, hcg, h⟩ := h
  obtain ⟨_, rfl⟩ := Restriction.copyIn_ok hw
  obtain ⟨_, rfl⟩ := Restriction.copyIn_ok hi
  obtain ⟨_, rfl⟩ := Restriction.copyIn_ok hg
  injection h with h
  subst h
  obtain ⟨r, er, hr⟩ := colloTest_ok (near := near) (P1 := P1.toNat) (Q1 := Q1.toNat)
    (m := (⟨Q1.toNat * P1.toNat, i1.val⟩ : Buf α)) (by
      by_cases h : Q1.toNat = P1.toNat
      · left; rw [h]
      · right; exact h)
  rw [er] at hci
  cases hci
  refine ⟨rfl, rfl, by simp only; omega, by simp only; omega, by simp only; omega, rfl, rfl, rfl, rfl, rfl,
    fun hc => (hr hc).1.symm, ?_⟩
  intro cg' hcg'
  simp only at hcg'
  subst hcg'
  unfold colloOpt at hcg
  split at hcg
  · rename_i hh
    simp only [Res.bind_eq_ok] at hcg
    obtain ⟨m, hm, h⟩ := hcg
    cases h
    exact ⟨hh.1, hcollo _ _ _ _ _ hm⟩
  · cases hcg

omit [CommRing α] in
theorem TensorShape.sizeQ (hb : TensorShape b) (ne : Nat) : tmpSize b ne b.Q1 b.Q1 = b.nc * b.Q * ne := by
  unfold tmpSize
  rw [if_neg (by omega), hb.hQ]
  obtain ⟨n, hn⟩ : ∃ n, b.dim = n + 1 := ⟨b.dim - 1, by have := hb.dim; omega⟩
  rw [hn, Nat.add_sub_cancel, pow_succ]; ring

omit [CommRing α] in
theorem TensorShape.strideQ (hb : TensorShape b) {ne c L : Nat} (hc : c < b.dim) (hL : ne * b.nc * b.Q * b.dim ≤ L) :
    c * (b.nc * b.Q * ne) + b.nc * b.Q1 ^ b.dim * ne ≤ L := by
  rw [← hb.hQ]
  calc c * (b.nc * b.Q * ne) + b.nc * b.Q * ne = (c + 1) * (b.nc * b.Q * ne) := by ring
    _ ≤ b.dim * (b.nc * b.Q * ne) := Nat.mul_le_mul_right _ hc
    _ = ne * b.nc * b.Q * b.dim := by ring
    _ ≤ L := hL

theorem TensorShape.interp (hb : TensorShape b) (junk : Nat → Nat → α) (add : Bool) {ne : Nat} (tm : TMode) {u v : Buf α}
    (h : match tm with
      | .noTranspose => ne * b.nc * b.P ≤ u.len ∧ ne * b.nc * b.Q ≤ v.len
      | .transpose => ne * b.nc * b.Q ≤ u.len ∧ ne * b.nc * b.P ≤ v.len) :
    ∃ v', tensorInterp b junk add ne tm u v = .ok v' ∧ v'.len = v.len := by
  have eP : b.nc * b.P * ne = ne * b.nc * b.P := by ring
  have eQ : b.nc * b.Q * ne = ne * b.nc * b.Q := by ring
  unfold tensorInterp
  by_cases hc : b.colloInterp = true
  · have hPQ : b.P = b.Q := by rw [hb.hP, hb.hQ, hb.colloI hc]
    have : ne * b.nc * b.P ≤ u.len ∧ ne * b.nc * b.P ≤ v.len := by
      cases tm <;> simp only [hPQ] at h ⊢ <;> exact h
    rw [if_pos hc]
    unfold memcpy
    rw [if_pos this]
    exact ⟨_, rfl, rfl⟩
  · rw [if_neg hc]
    cases tm with
    | noTranspose =>
      simp only at h ⊢
      rw [chain_eq hb.dim hb.P1 (fun d _ => by rw [hb.interp1, Nat.mul_comm])
        (by rw [← hb.hP, Nat.zero_add, eP]; exact h.1) (by rw [← hb.hQ, Nat.zero_add, eQ]; exact h.2)
        (fun d h0 hd => tmp_ok h0 hd)]
      exact ⟨_, rfl, rfl⟩
    | transpose =>
      simp only at h ⊢
      rw [chain_eq hb.dim hb.Q1 (fun d _ => by rw [hb.interp1]) (by rw [← hb.hQ, Nat.zero_add, eQ]; exact h.1)
        (by rw [← hb.hP, Nat.zero_add, eP]; exact h.2) (fun d h0 hd => tmp_ok h0 hd)]
      exact ⟨_, rfl, rfl⟩

theorem TensorShape.grad (hb : TensorShape b) (junk : Nat → Nat → α) (aa add : Bool) {ne : Nat} (tm : TMode)
    {u v : Buf α}
    (h : match tm with
      | .noTranspose => ne * b.nc * b.P ≤ u.len ∧ ne * b.nc * b.Q * b.dim ≤ v.len
      | .transpose => ne * b.nc * b.Q * b.dim ≤ u.len ∧ ne * b.nc * b.P ≤ v.len) :
    ∃ v', tensorGrad b junk aa add ne tm u v = .ok v' ∧ v'.len = v.len := by
  have eP : b.nc * b.P * ne = ne * b.nc * b.P := by ring
  unfold tensorGrad
  simp only
  cases hcg : b.colloGrad with
  | some cg =>
    simp only
    obtain ⟨hPQ, hl⟩ := hb.colloG cg hcg
    cases tm with
    | noTranspose =>
      simp only at h ⊢
      have hsz : tmpSize b ne b.P1 b.Q1 = b.nc * b.Q * ne := by
        rw [← hb.sizeQ]; unfold tmpSize
        rw [show (if b.P1 > b.Q1 then b.P1 else b.Q1) = b.Q1 by split <;> omega, if_neg (by omega)]
      rw [chain_eq hb.dim hb.P1 (fun d _ => by rw [hb.interp1, Nat.mul_comm])
        (by rw [← hb.hP, Nat.zero_add, eP]; exact h.1) (by simp only; rw [hsz, ← hb.hQ, Nat.zero_add])
        (fun d h0 hd => tmp_ok h0 hd)]
      rw [Res.bind_ok, sweep_loop hb.Q1]
      refine Safe.loop (fun c hc w hw => ?_) v rfl
      rw [dirStep_eq hc (by rw [hl]) (by simp only [contrOut]; rw [hsz, ← hb.hQ, Nat.zero_add])
        (by rw [hw]; exact hb.strideQ hc h.2)]
      exact ⟨_, rfl, hw⟩
    | transpose =>
      simp only at h ⊢
      rw [sweep_loop hb.Q1]
      obtain ⟨z, e, lz⟩ := Safe.loop (n := b.dim) (L := tmpSize b ne b.Q1 b.Q1) (body := dirStep' b ne cg u)
        (fun c hc w hw => by
          unfold dirStep'
          rw [dirStep_eq hc (by rw [hl]) (hb.strideQ hc h.1) (by rw [hw, hb.sizeQ, ← hb.hQ, Nat.zero_add])]
          exact ⟨_, rfl, hw⟩) ⟨tmpSize b ne b.Q1 b.Q1, junk 2⟩ rfl
      rw [show loop b.dim (fun d => dirStep b.dim b.nc ne b.Q1 cg .transpose (decide (0 < d)) u
        (d * (b.nc * b.Q * ne)) 0 d) ⟨tmpSize b ne b.Q1 b.Q1, junk 2⟩ = .ok z from e, Res.bind_ok, chain_eq hb.dim hb.Q1 (fun d _ => by rw [hb.interp1])
        (by rw [lz, hb.sizeQ, ← hb.hQ, Nat.zero_add]) (by rw [← hb.hP, Nat.zero_add, eP]; exact h.2) (fun d h0 hd => by
        refine le_trans ?_ (hb.sizeQ ne).ge
        calc b.nc * b.Q1 ^ (b.dim - d) * b.P1 ^ d * ne ≤ b.nc * b.Q1 ^ (b.dim - d) * b.Q1 ^ d * ne :=
              Nat.mul_le_mul_right _ (Nat.mul_le_mul_left _ (Nat.pow_le_pow_left hPQ _))
          _ = b.nc * b.Q * ne := by
              rw [hb.hQ, mul_assoc b.nc, ← pow_add]; congr 3; omega)]
      exact ⟨_, rfl, rfl⟩
  | none =>
    simp only
    by_cases hc : b.colloInterp = true
    · have hPQ := hb.colloI hc
      have hPQ' : b.P = b.Q := by rw [hb.hP, hb.hQ, hPQ]
      rw [if_pos hc]
      cases tm with
      | noTranspose =>
        simp only at h ⊢
        rw [hPQ, sweep_loop hb.Q1]
        refine Safe.loop (fun c hc w hw => ?_) v rfl
        rw [dirStep_eq hc (by rw [hb.grad1, hPQ]) (by rw [← hPQ, ← hb.hP, Nat.zero_add, eP]; exact h.1)
          (by rw [hw]; exact hb.strideQ hc h.2)]
        exact ⟨_, rfl, hw⟩
      | transpose =>
        simp only at h ⊢
        rw [sweep_loop hb.Q1]
        refine Safe.loop (fun c hc w hw => ?_) v rfl
        rw [dirStep_eq hc (by rw [hb.grad1, hPQ]) (hb.strideQ hc h.1)
          (by rw [hw, ← hPQ, ← hb.hP, Nat.zero_add, eP]; exact h.2)]
        exact ⟨_, rfl, hw⟩
    · rw [if_neg hc]
      refine Safe.loop (fun c hc w hw => ?_) v rfl
      cases tm with
      | noTranspose =>
        simp only at h ⊢
        rw [chain_eq hb.dim hb.P1 (fun d _ => by split <;> simp only [hb.interp1, hb.grad1, Nat.mul_comm, le_refl])
          (by rw [← hb.hP, Nat.zero_add, eP]; exact h.1) (by rw [hw]; exact hb.strideQ hc h.2)
          (fun d h0 hd => tmp_ok h0 hd)]
        exact ⟨_, rfl, hw⟩
      | transpose =>
        simp only at h ⊢
        rw [chain_eq hb.dim hb.Q1 (fun d _ => by split <;> simp only [hb.interp1, hb.grad1, le_refl])
          (hb.strideQ hc h.1) (by rw [← hb.hP, Nat.zero_add, eP, hw]; exact h.2) (fun d h0 hd => tmp_ok h0 hd)]
        exact ⟨_, rfl, hw⟩

theorem strided_safe {nc P ne qc Q : Nat} {m u v : Buf α} {tm : TMode} {add : Bool} (hm : qc * Q * P ≤ m.len)
    (h : match tm with
      | .noTranspose => ne * nc * P ≤ u.len ∧ ne * Q * nc * qc ≤ v.len
      | .transpose => ne * nc * Q * qc ≤ u.len ∧ ne * nc * P ≤ v.len) :
    ∃ v', contractStrided nc P ne qc Q m tm add u v = .ok v' ∧ v'.len = v.len := by
  have hs : ∀ c < qc, c * P * Q + P * Q ≤ qc * Q * P ∧ c * nc * Q * ne + nc * Q * ne ≤ ne * nc * Q * qc := by
    intro c hc
    constructor
    · calc c * P * Q + P * Q = (c + 1) * (Q * P) := by ring
        _ ≤ qc * (Q * P) := Nat.mul_le_mul_right _ hc
        _ = _ := by ring
    · calc c * nc * Q * ne + nc * Q * ne = (c + 1) * (nc * Q * ne) := by ring
        _ ≤ qc * (nc * Q * ne) := Nat.mul_le_mul_right _ hc
        _ = _ := by ring
  unfold contractStrided
  cases tm with
  | noTranspose =>
    simp only at h ⊢
    refine Safe.loop (fun c hc w hw => ?_) v rfl
    have := hs c hc
    rw [contract_eq _ _ _ _ _ _ _ _ _ _ _ _ (by omega) (by rw [show nc * P * ne = ne * nc * P by ring]; omega)
      (by rw [show ne * nc * Q * qc = ne * Q * nc * qc by ring] at this; omega)]
    exact ⟨_, rfl, hw⟩
  | transpose =>
    simp only at h ⊢
    refine Safe.loop (fun c hc w hw => ?_) v rfl
    have := hs c hc
    rw [contract_eq _ _ _ _ _ _ _ _ _ _ _ _ (by rw [Nat.mul_comm Q]; omega) (by omega)
      (by rw [show nc * P * ne = ne * nc * P by ring]; omega)]
    exact ⟨_, rfl, hw⟩

omit [CommRing α] in
/-- What the length checks give. -/
theorem checkDims_cases (b : Bas α) (ne : Nat) (tm : TMode) (em : EMode) (u : Option (Buf α)) (v : Buf α) :
    checkDims b ne tm em u v = .err .dimension ∨ (checkDims b ne tm em u v = .ok () ∧
      (em = .weight → ne * b.Q ≤ v.len) ∧ (em ≠ .weight → ∀ u', u = some u' → match tm with
        | .noTranspose => ne * b.nc * b.P ≤ u'.len ∧ ne * b.Q * b.nc * b.qComp em ≤ v.len
        | .transpose => ne * b.nc * b.Q * b.qComp em ≤ u'.len ∧ ne * b.nc * b.P ≤ v.len)) := by
  have key : ∀ (c : Prop) [Decidable c], Res.check c .dimension = .err .dimension ∨
      (Res.check c .dimension = .ok () ∧ c) := by
    intro c _
    by_cases h : c
    · exact Or.inr ⟨Res.check_true h _, h⟩
    · exact Or.inl (Res.check_false h _)
  refine (key _).imp id (fun ⟨h1, h⟩ => ⟨h1, ?_, ?_⟩)
  · rintro rfl; simpa using h
  · rintro hw u' rfl
    cases em <;> cases tm <;> simp_all

end Basis
end Verif
