import Verif.Basis.ProjectionLemmas
import Verif.Basis.Props
import Verif.Basis.PointsProps
import Mathlib.LinearAlgebra.Dimension.Constructions
import Mathlib.LinearAlgebra.Matrix.ToLin

/-!
# Projection bases (C57)
-/

namespace Verif
namespace Basis

open Finset Restriction

set_option linter.unusedSectionVars false

variable {K : Type} [Field K] [LinearOrder K] [IsStrictOrderedRing K]

theorem independent_of {R P : Nat} {m : Buf K} (h : Separates R P (fun r n => m.val (r * P + n))) : Independent (asMat m R P) := by
  intro x hx
  funext j
  have := h (fun n => if hn : n < P then x ⟨n, hn⟩ else 0) (fun r hr => by
    have := congrFun hx ⟨r, hr⟩
    simp only [Matrix.mulVec, dotProduct, asMat, Pi.zero_apply] at this
    refine Eq.trans ?_ this
    rw [← Fin.sum_univ_eq_sum_range (fun n => m.val (r * P + n) * (if hn : n < P then x ⟨n, hn⟩ else 0))]
    refine Fintype.sum_congr _ _ fun n => ?_
    rw [dif_pos n.2, show r * P + n.1 = n.1 + P * r by ring]) j.1 j.2
  simp only [dif_pos j.2] at this
  simpa using this

theorem rows_ge {R P : Nat} {m : Buf K} (h : Separates R P (fun r n => m.val (r * P + n))) : P ≤ R := by
  have hi := independent_of h
  have : Function.Injective (Matrix.mulVecLin (asMat m R P)) := by
    rw [← LinearMap.ker_eq_bot, LinearMap.ker_eq_bot']
    intro x hx
    exact hi x (by simpa using hx)
  have := LinearMap.finrank_le_finrank_of_injective this
  simpa using this

theorem created_mats {b : Bas K} (h : Created b) : 0 < b.nc ∧ 0 < b.P ∧ 0 < b.Q ∧ (b.space = .h1 → b.qComp .interp = 1) ∧
    (∃ m, getInterp b = .ok (some m) ∧ m.len = b.Q * b.qComp .interp * b.P ∧ MulBy b .interp m) ∧
    (b.space = .h1 → ∃ g, getGrad b = .ok (some g) ∧ g.len = b.dim * b.Q * b.P ∧ MulBy b .grad g) := by
  rcases h with ⟨i1, g1, w, hb⟩ | ⟨sp, i, d, w, hb⟩
  · obtain ⟨hT, _⟩ := tensorOK_of hb
    obtain ⟨m, e, l, a⟩ := getInterp_tensor hT
    obtain ⟨g, e', l', a'⟩ := getGrad_tensor hT
    have hq : b.qComp .interp = 1 := by simp [Bas.qComp, hT.h1]
    refine ⟨hT.nc, by rw [hT.hP]; exact Nat.pow_pos hT.P1, by rw [hT.hQ]; exact Nat.pow_pos hT.Q1, fun _ => hq,
      ⟨m, e, by rw [hq, l, Nat.mul_one], hT.mulBy_interp a⟩, fun _ => ⟨g, e', l', hT.mulBy_grad a'⟩⟩
  · obtain ⟨⟨m, h1, h2, h3⟩, ⟨m', h4, h5⟩, _⟩ := usesMat_of hb
    obtain ⟨dim, nc, P, Q, h⟩ := hb
    unfold createNonTensor at h
    simp only [Res.bind_eq_ok, Res.check_eq_ok] at h
    obtain ⟨_, g1, _, g2, _, g3, w', hw, i', hi, d', hd, h⟩ := h
    obtain ⟨_, rfl⟩ := Restriction.copyIn_ok hw
    obtain ⟨_, rfl⟩ := Restriction.copyIn_ok hi
    obtain ⟨_, rfl⟩ := Restriction.copyIn_ok hd
    injection h with h
    subst h
    refine ⟨by simp only []; omega, by simp only []; omega, by simp only []; omega, ?_, ⟨m, h2, ?_, h1.mulBy⟩, ?_⟩
    · intro hs
      cases sp <;> simp_all [Bas.space, Bas.qComp]
    · simp only [getInterp, Res.ok.injEq, Option.some.injEq] at h2
      rw [← h2]
      have comm : ∀ a q p : Nat, a * q * p = q * a * p := fun a q p => by ring
      cases sp <;> exact comm _ _ _
    · intro hs
      cases sp
      · simp only [Space.mode] at h4
        rcases h4.2.2 with ⟨h, _⟩ | ⟨_, h⟩ | ⟨h, _⟩ | ⟨h, _⟩
        · cases h
        · simp only [if_true] at h
          injection h with h
          subst h
          exact ⟨_, rfl, rfl, h4.mulBy⟩
        · cases h
        · cases h
      · simp [Bas.space] at hs
      · simp [Bas.space] at hs

/-- C57: projection between bases that are not both tensor bases. With the same number of quadrature points and the same space (and,
outside `H^1`, the same dimension), if different node values of `to_` differ at some point, creation succeeds; the new basis
is not a tensor basis, it has the components and nodes of `from_` and the nodes of `to_` for points, and it gives the node
values of `to_` that fit best the interpolation and, for `H^1`, the gradient of `from_`. -/
theorem C57_nontensor {env : PEnv K} (hsq : IsSqrt env.sqrt) (htiny : ∀ x, env.tiny x = true → x = 0) {from_ to_ : Bas K}
    (hf : Created from_) (ht : Created to_) (hnt : ¬(to_.isTensor = true ∧ from_.isTensor = true)) (hQ : to_.Q = from_.Q)
    (hsp : to_.space = from_.space) (hdim : from_.space ≠ .h1 → to_.dim = from_.dim) {mt : Buf K}
    (emt : getInterp to_ = .ok (some mt)) (hS : Separates to_.rows to_.P (fun r n => mt.val (r * to_.P + n))) :
    ∃ b mi, createProjection env from_ to_ = .ok b ∧ getInterp from_ = .ok (some mi) ∧ Created b ∧ b.isTensor = false ∧
      b.nc = from_.nc ∧ b.P = from_.P ∧ b.Q = to_.P ∧ b.dim = from_.topoDim ∧ Projects b from_ to_ .interp mt mi ∧
      (from_.space = .h1 → ∃ mg, getGrad from_ = .ok (some mg) ∧ Projects b from_ to_ .grad mt mg) := by
  obtain ⟨fnc, fP, fQ, fq, ⟨mi, eI, lI, _⟩, fG⟩ := created_mats hf
  obtain ⟨tnc, tP, tQ, tq, ⟨mt', eT, lT, _⟩, _⟩ := created_mats ht
  rw [emt] at eT
  injection eT with eT
  injection eT with eT
  subst eT
  have hb : (to_.isTensor && from_.isTensor) = false := by
    cases h1 : to_.isTensor <;> cases h2 : from_.isTensor <;> simp_all
  have hqc : to_.qComp .interp = from_.qComp .interp := by
    by_cases hh : from_.space = .h1
    · rw [fq hh, tq (hsp.trans hh)]
    · have h1 : to_.space ≠ .h1 := hsp ▸ hh
      have n1 : from_.isH1 = false := by
        by_contra hc; exact hh (by simp only [Bas.space]; rw [if_pos (by simpa using hc)])
      have n2 : to_.isH1 = false := by
        by_contra hc; exact h1 (by simp only [Bas.space]; rw [if_pos (by simpa using hc)])
      simp only [Bas.qComp, n1, n2, hdim hh]
  have hrows : to_.Q * from_.qComp .interp = to_.rows := by unfold Bas.rows; rw [hqc]; ring
  have hmg : ∃ mg : Buf K, from_.space = .h1 → getGrad from_ = .ok (some mg) ∧ mg.len = from_.dim * from_.Q * from_.P := by
    by_cases hh : from_.space = .h1
    · obtain ⟨g, e, l, _⟩ := fG hh
      exact ⟨g, fun _ => ⟨e, l⟩⟩
    · exact ⟨⟨0, fun _ => 0⟩, fun h => absurd h hh⟩
  obtain ⟨mg, hmg⟩ := hmg
  obtain ⟨ip, gp, X, eM, lip, lgp, hX, vip, vgp⟩ := matrices_ok (env := env) hsq htiny (from_ := from_) (to_ := to_) (both := false) hb
    (Pt := to_.P) (Pf := from_.P) (Q := to_.Q) (qc := from_.qComp .interp) (nm := from_.dim) rfl rfl rfl rfl rfl hQ hsp
    (mt := mt) (mi := mi) (mg := mg) emt eI (fun h => (hmg (hsp ▸ h)).1) (fun h => fq (hsp ▸ h))
    (by rw [lT, hqc]) (by rw [lI, hQ]) (fun h => by rw [(hmg (hsp ▸ h)).2, hQ]) tP
    (by rw [hrows]; exact rows_ge hS) (by rw [hrows]; exact independent_of hS)
  rw [hrows] at hX vip
  have htd : from_.topoDim ≤ from_.dim := by
    unfold Bas.topoDim
    split
    · exact min_le_left _ _
    · exact le_refl _
  have ecr : ∃ b, createNonTensor .h1 from_.topoDim from_.nc from_.P to_.P ip gp ⟨to_.P, fun _ => 0⟩ = .ok b := by
    unfold createNonTensor
    rw [Res.check_true (by exact_mod_cast fnc), Res.bind_ok, Res.check_true (by exact_mod_cast fP), Res.bind_ok,
      Res.check_true (by exact_mod_cast tP), Res.bind_ok]
    simp only [copyIn, if_true, Int.toNat_natCast, le_refl, Res.bind_ok]
    rw [if_pos (by rw [lip]; exact le_of_eq (by ring)), Res.bind_ok, if_pos (by
      rw [lgp]
      calc from_.topoDim * to_.P * from_.P ≤ from_.dim * to_.P * from_.P :=
            Nat.mul_le_mul_right _ (Nat.mul_le_mul_right _ htd)
        _ = to_.P * from_.P * from_.dim := by ring), Res.bind_ok]
    exact ⟨_, rfl⟩
  obtain ⟨b, ecr⟩ := ecr
  have hNT : NonTensorBasis b .h1 ip gp ⟨to_.P, fun _ => 0⟩ := ⟨_, _, _, _, ecr⟩
  have hdims : b.isTensor = false ∧ b.isH1 = true ∧ b.dim = from_.topoDim ∧ b.nc = from_.nc ∧ b.P = from_.P ∧ b.Q = to_.P := by
    unfold createNonTensor at ecr
    simp only [Res.bind_eq_ok, Res.check_eq_ok] at ecr
    obtain ⟨_, _, _, _, _, _, _, _, _, _, _, _, h⟩ := ecr
    injection h with h
    subst h
    exact ⟨rfl, rfl, rfl, rfl, rfl, rfl⟩
  obtain ⟨bt, bh, bd, bnc, bP, bQ⟩ := hdims
  obtain ⟨⟨m, _, hm, hmul, _⟩, m', hm', hmul', _⟩ := C21_nontensor hNT
  have h0 : b.qComp .interp = 1 := by simp [Bas.qComp, bh]
  refine ⟨b, mi, ?_, eI, Or.inr ⟨_, _, _, _, hNT⟩, bt, bnc, bP, bQ, bd, ?_, fun hh => ⟨mg, (hmg hh).1, ?_⟩⟩
  · unfold createProjection
    rw [eM, Res.bind_ok]
    simp only [hb]
    exact ecr
  · intro junk ne u v hu hv
    obtain ⟨v', e, l, a, _⟩ := hmul junk ne u v (by rw [bP]; exact hu) (by rw [bQ]; exact hv)
    refine ⟨v', e, l, fun c hc k hk e he => bestFit_of hX fun n hn => ?_⟩
    have hc0 : c = 0 := by omega
    subst hc0
    have := a 0 hc k hk n (by rw [bQ]; exact hn) e he
    rw [show quadPos b.nc b.Q ne 0 k n e = nodePos to_.P ne (0 * b.nc + k) n e by unfold quadPos nodePos; rw [bQ]] at this
    rw [this]
    unfold rowTimes
    rw [bP, bQ, hm]
    simp only [Nat.zero_mul, Nat.zero_add]
    rw [sum_congr rfl fun p hp => by rw [vip n hn p (mem_range.1 hp), sum_mul]]
    rw [sum_comm]
    refine sum_congr rfl fun r _ => ?_
    rw [mul_sum]
    exact sum_congr rfl fun p _ => by ring
  · intro junk ne u v hu hv
    obtain ⟨v', e, l, a, _⟩ := hmul' junk ne u v (by rw [bP]; exact hu) (by rw [bQ]; exact hv)
    refine ⟨v', e, l, fun c hc k hk e he => bestFit_of hX fun n hn => ?_⟩
    have := a c hc k hk n (by rw [bQ]; exact hn) e he
    rw [show quadPos b.nc b.Q ne c k n e = nodePos to_.P ne (c * b.nc + k) n e by unfold quadPos nodePos; rw [bQ]] at this
    rw [this]
    have hr1 : to_.rows = to_.Q := by unfold Bas.rows; rw [tq (hsp.trans hh), Nat.one_mul]
    unfold rowTimes
    rw [bP, bQ, hm', hr1]
    have hcd : c < from_.dim := lt_of_lt_of_le (by simpa [Bas.qComp, bd] using hc) htd
    rw [sum_congr rfl fun p hp => by rw [vgp (hsp.trans hh) c hcd n hn p (mem_range.1 hp), sum_mul]]
    rw [sum_comm]
    refine sum_congr rfl fun r _ => ?_
    rw [mul_sum]
    exact sum_congr rfl fun p _ => by ring

/-- C57: projection between two tensor bases of the same dimension and the same number of points per direction. If in 1D
different node values of `to_` differ at some point and, when `from_` has at most as many nodes as `to_`, no function of `from_`
other than zero is orthogonal at the points to all functions of `to_`, then creation succeeds and the new tensor basis gives
the node values of `to_` that fit best, over all the quadrature points of the element, the interpolation and the gradient of
`from_`. -/
theorem C57_tensor {env : PEnv K} (hsq : IsSqrt env.sqrt) (htiny : ∀ x, env.tiny x = true → x = 0) (hnear : ∀ x, env.near x = true → x = 0)
    {from_ to_ : Bas K} {iF gF wF iT gT wT : Buf K} (hf : TensorBasis from_ iF gF wF) (ht : TensorBasis to_ iT gT wT)
    (hdim : to_.dim = from_.dim) (hQ1 : to_.Q1 = from_.Q1) (hS : Separates to_.Q1 to_.P1 (fun r n => iT.val (r * to_.P1 + n)))
    (hA : from_.P1 ≤ to_.P1 → Separates to_.P1 from_.P1 (fun n p =>
      ∑ r ∈ range to_.Q1, iT.val (r * to_.P1 + n) * iF.val (r * from_.P1 + p))) :
    ∃ b mt mi mg, createProjection env from_ to_ = .ok b ∧ getInterp to_ = .ok (some mt) ∧ getInterp from_ = .ok (some mi) ∧
      getGrad from_ = .ok (some mg) ∧ Created b ∧ b.isTensor = true ∧ b.nc = from_.nc ∧ b.P = from_.P ∧ b.Q = to_.P ∧
      b.dim = to_.dim ∧ Projects b from_ to_ .interp mt mi ∧ Projects b from_ to_ .grad mt mg := by
  obtain ⟨fT, fi, fg, _⟩ := tensorOK_of hf
  obtain ⟨tT, ti, _, _⟩ := tensorOK_of ht
  have fi' : ∀ q < from_.Q1, ∀ p < from_.P1, from_.interp1.val (q * from_.P1 + p) = iF.val (q * from_.P1 + p) :=
    fun q _ p _ => fi q p
  have fg' : ∀ q < from_.Q1, ∀ p < from_.P1, from_.grad1.val (q * from_.P1 + p) = gF.val (q * from_.P1 + p) :=
    fun q _ p _ => fg q p
  have ti' : ∀ q p, to_.interp1.val (q * to_.P1 + p) = iT.val (q * to_.P1 + p) := fun q p => ti q p
  have hS' : Separates (from_.Q1 * 1) to_.P1 (fun r n => to_.interp1.val (r * to_.P1 + n)) := by
    rw [Nat.mul_one, ← hQ1]
    simp only [ti']
    exact hS
  have hsp : to_.space = .h1 := by simp [Bas.space, tT.h1]
  have hsp' : from_.space = .h1 := by simp [Bas.space, fT.h1]
  have hb : (to_.isTensor && from_.isTensor) = true := by simp [tT.tensor, fT.tensor]
  obtain ⟨ip, gp, X, eM, lip, lgp, hX, vip, vgp⟩ := matrices_ok (env := env) hsq htiny (from_ := from_) (to_ := to_) (both := true) hb
    (Pt := to_.P1) (Pf := from_.P1) (Q := from_.Q1) (qc := 1) (nm := 1) rfl rfl rfl rfl rfl
    (by rw [tT.hQ, fT.hQ, hdim, hQ1]) (hsp.trans hsp'.symm) (mt := to_.interp1) (mi := from_.interp1) (mg := from_.grad1) rfl rfl
    (fun _ => rfl) (fun _ => rfl) (by rw [tT.interp1, hQ1]; ring) (by rw [fT.interp1]; ring) (fun _ => by rw [fT.grad1]; ring) tT.P1
    (rows_ge hS') (independent_of hS')
  have vip' : ∀ n < to_.P1, ∀ p < from_.P1, ip.val (n * from_.P1 + p) =
      ∑ r ∈ range from_.Q1, X n r * iF.val (r * from_.P1 + p) := by
    intro n hn p hp
    rw [vip n hn p hp, Nat.mul_one]
    exact sum_congr rfl fun r hr => by rw [fi' r (mem_range.1 hr) p hp]
  have vgp' : ∀ n < to_.P1, ∀ p < from_.P1, gp.val (n * from_.P1 + p) =
      ∑ r ∈ range from_.Q1, X n r * gF.val (r * from_.P1 + p) := by
    intro n hn p hp
    have := vgp hsp 0 Nat.one_pos n hn p hp
    simp only [Nat.zero_mul, Nat.zero_add] at this
    rw [this]
    exact sum_congr rfl fun r hr => by rw [fg' r (mem_range.1 hr) p hp]
  have hX1 : PInverse from_.Q1 to_.P1 (fun r n => iT.val (r * to_.P1 + n)) X := by
    rw [Nat.mul_one] at hX
    exact hX.congr fun r _ n _ => (ti' r n).symm
  have hind : from_.P1 ≤ to_.P1 → Independent (asMat ip to_.P1 from_.P1) := by
    intro hle
    refine independent_of fun x hx => hA hle x fun n hn => ?_
    have h1 := hX1.normal (fun r => ∑ p ∈ range from_.P1, iF.val (r * from_.P1 + p) * x p) hn
    have h2 : ∀ m < to_.P1, ∑ s ∈ range from_.Q1, X m s * ∑ p ∈ range from_.P1, iF.val (s * from_.P1 + p) * x p = 0 := by
      intro m hm
      rw [← hx m hm]
      simp only [mul_sum]
      rw [sum_comm]
      refine sum_congr rfl fun p hp => ?_
      rw [vip' m hm p (mem_range.1 hp), sum_mul]
      exact sum_congr rfl fun r _ => by ring
    rw [sum_congr rfl fun r _ => by rw [sum_congr rfl fun m hm => by rw [h2 m (mem_range.1 hm), mul_zero], sum_const_zero, mul_zero],
      sum_const_zero] at h1
    rw [hQ1]
    refine Eq.trans ?_ h1.symm
    simp only [mul_sum]
    rw [sum_comm]
    refine sum_congr rfl fun p _ => ?_
    rw [sum_mul]
    exact sum_congr rfl fun r _ => by ring
  obtain ⟨b, eb, hTB⟩ := C22_creation_partial hsq env.v0 env.v1 hnear (dim := to_.dim) (nc := from_.nc) (P1 := from_.P1) (Q1 := to_.P1)
    (i1 := ip) (g1 := gp) (w := ⟨to_.P1, fun _ => 0⟩) tT.dim fT.nc fT.P1 tT.P1 lip (by rw [lgp, Nat.mul_one]) rfl hind
  obtain ⟨bd, bnc, bP1, bQ1⟩ := create_dims eb
  obtain ⟨bT, _⟩ := tensorOK_of hTB
  have bP : b.P = from_.P := by rw [bT.hP, bP1, bd, hdim, fT.hP]
  have bQ : b.Q = to_.P := by rw [bT.hQ, bQ1, bd, tT.hP]
  obtain ⟨mt, et, at_, _⟩ := C21_interp_partial ht
  obtain ⟨mi, ei, ai, _⟩ := C21_interp_partial hf
  obtain ⟨mg, eg, ag, _⟩ := C22_grad_partial hf
  obtain ⟨m, _, am, hmul, _⟩ := C21_interp_partial hTB
  obtain ⟨m', _, am', hmul', _⟩ := C22_grad_partial hTB
  have hXf : PInverse to_.rows to_.P (fun r n => mt.val (r * to_.P + n))
      (fun n q => ∏ d ∈ range to_.dim, X (coord to_.P1 d n) (coord from_.Q1 d q)) := by
    have hr : to_.rows = from_.Q1 ^ to_.dim := by
      unfold Bas.rows
      rw [show to_.qComp .interp = 1 by simp [Bas.qComp, tT.h1], Nat.one_mul, tT.hQ, hQ1]
    have := hX1.tensor to_.dim fT.Q1 tT.P1
    rw [← hr, ← tT.hP] at this
    refine this.congr fun r hr' n hn => ?_
    rw [at_ r (by rw [tT.hQ, hQ1, ← hr]; exact hr') n hn, hQ1]
  have hrows : to_.rows = from_.Q := by
    unfold Bas.rows
    rw [show to_.qComp .interp = 1 by simp [Bas.qComp, tT.h1], Nat.one_mul, tT.hQ, hQ1, fT.hQ, hdim]
  refine ⟨b, mt, mi, mg, ?_, et, ei, eg, Or.inl ⟨_, _, _, hTB⟩, bT.tensor, bnc, bP, bQ, bd, ?_, ?_⟩
  · unfold createProjection
    rw [eM, Res.bind_ok]
    simp only [hb, if_true]
    exact eb
  · intro junk ne u v hu hv
    obtain ⟨v', e, l, a, _⟩ := hmul junk ne u v (by rw [bP]; exact hu) (by rw [bQ]; exact hv)
    refine ⟨v', e, l, fun c hc k hk e he => bestFit_of hXf fun n hn => ?_⟩
    have hc0 : c = 0 := by
      have : b.qComp .interp = 1 := by simp [Bas.qComp, bT.h1]
      omega
    subst hc0
    have := a 0 hc k hk n (by rw [bQ]; exact hn) e he
    rw [show quadPos b.nc b.Q ne 0 k n e = nodePos to_.P ne (0 * b.nc + k) n e by unfold quadPos nodePos; rw [bQ]] at this
    rw [this]
    unfold rowTimes
    rw [hrows, bP]
    have h1 := kron_fit (dim := to_.dim) fT.Q1 (X := X) (H := fun _ r p => iF.val (r * from_.P1 + p))
      (M := fun _ n p => ip.val (n * from_.P1 + p)) (fun d _ n hn p hp => vip' n hn p hp) tT.P1 fT.P1
      (fun p => u.val (nodePos from_.P ne k p e)) n
    have hfp : from_.P1 ^ to_.dim = from_.P := by rw [hdim, ← fT.hP]
    have hfq : from_.Q1 ^ to_.dim = from_.Q := by rw [hdim, ← fT.hQ]
    rw [hfp, hfq] at h1
    refine Eq.trans (sum_congr rfl fun p hp => ?_) (h1.trans (sum_congr rfl fun r hr => ?_))
    · rw [show (0 * b.Q + n) * from_.P + p = n * b.P + p by rw [bP]; ring, am n (by rw [bQ]; exact hn) p (by rw [bP]; exact mem_range.1 hp),
        bd, bQ1, bP1]
    · congr 1
      refine sum_congr rfl fun p hp => ?_
      rw [Nat.zero_mul, Nat.zero_add, ai r (mem_range.1 hr) p (mem_range.1 hp), hdim]
  · intro junk ne u v hu hv
    obtain ⟨v', e, l, a, _⟩ := hmul' junk ne u v (by rw [bP]; exact hu) (by rw [bQ]; exact hv)
    refine ⟨v', e, l, fun c hc k hk e he => bestFit_of hXf fun n hn => ?_⟩
    have hcd : c < b.dim := by simpa [Bas.qComp] using hc
    have := a c hc k hk n (by rw [bQ]; exact hn) e he
    rw [show quadPos b.nc b.Q ne c k n e = nodePos to_.P ne (c * b.nc + k) n e by unfold quadPos nodePos; rw [bQ]] at this
    rw [this]
    unfold rowTimes
    rw [hrows, bP]
    have h1 := kron_fit (dim := to_.dim) fT.Q1 (X := X) (H := fun d r p => (if c = d then gF else iF).val (r * from_.P1 + p))
      (M := fun d n p => (if c = d then gp else ip).val (n * from_.P1 + p)) (fun d _ n hn p hp => by
        by_cases hcd : c = d
        · simp only [if_pos hcd]; exact vgp' n hn p hp
        · simp only [if_neg hcd]; exact vip' n hn p hp) tT.P1 fT.P1
      (fun p => u.val (nodePos from_.P ne k p e)) n
    have hfp : from_.P1 ^ to_.dim = from_.P := by rw [hdim, ← fT.hP]
    have hfq : from_.Q1 ^ to_.dim = from_.Q := by rw [hdim, ← fT.hQ]
    rw [hfp, hfq] at h1
    refine Eq.trans (sum_congr rfl fun p hp => ?_) (h1.trans (sum_congr rfl fun r hr => ?_))
    · rw [show (c * b.Q + n) * from_.P + p = (c * b.Q + n) * b.P + p by rw [bP],
        am' c hcd n (by rw [bQ]; exact hn) p (by rw [bP]; exact mem_range.1 hp), bd, bQ1, bP1]
    · congr 1
      refine sum_congr rfl fun p hp => ?_
      rw [ag c (by rw [← hdim, ← bd]; exact hcd) r (mem_range.1 hr) p (mem_range.1 hp), hdim]

/-- C57: the hypothesis of `C57_tensor` on orthogonal functions holds when the functions of `from_` are functions of `to_` and
are told apart at the points. -/
theorem C57_nested {Q Pf Pt : Nat} {A B : Nat → Nat → K} (hB : Separates Q Pf B) (h : Contains Q Pf Pt B A) :
    Separates Pt Pf (fun n p => ∑ r ∈ range Q, A r n * B r p) := by
  intro x hx
  obtain ⟨y, hy⟩ := h x
  refine hB x ?_
  set g : Nat → K := fun r => ∑ p ∈ range Pf, B r p * x p with hg
  have h0 : ∀ n < Pt, ∑ r ∈ range Q, A r n * g r = 0 := by
    intro n hn
    rw [← hx n hn]
    simp only [hg, mul_sum]
    rw [sum_comm]
    refine sum_congr rfl fun p _ => ?_
    rw [sum_mul]
    exact sum_congr rfl fun r _ => by ring
  have hs : ∑ r ∈ range Q, g r ^ 2 = 0 := by
    have : ∀ r ∈ range Q, g r ^ 2 = ∑ n ∈ range Pt, y n * (A r n * g r) := by
      intro r hr
      rw [pow_two]
      nth_rw 1 [show g r = ∑ n ∈ range Pt, A r n * y n from (hy r (mem_range.1 hr)).symm]
      rw [sum_mul]
      exact sum_congr rfl fun n _ => by ring
    rw [sum_congr rfl this, sum_comm]
    exact sum_eq_zero fun n hn => by rw [← mul_sum, h0 n (mem_range.1 hn), mul_zero]
  intro r hr
  exact pow_eq_zero_iff (two_ne_zero) |>.1 ((sum_eq_zero_iff_of_nonneg fun r _ => sq_nonneg (g r)).1 hs r (mem_range.2 hr))

theorem BestFit.eq_of_exact {R P : Nat} {A : Nat → Nat → K} {f y z : Nat → K} (h : BestFit R P A f y)
    (hz : ∀ r < R, ∑ n ∈ range P, A r n * z n = f r) : ∀ n < P, y n = z n := by
  intro n hn
  by_contra hne
  have := h z ⟨n, hn, fun h => hne h.symm⟩
  have h0 : misfit R P A f z = 0 := sum_eq_zero fun r hr => by rw [hz r (mem_range.1 hr), sub_self, zero_pow two_ne_zero]
  rw [h0] at this
  exact absurd this (not_lt.2 (sum_nonneg fun r _ => sq_nonneg _))

theorem exact_of {b from_ to_ : Bas K} (hf : Created from_) (ht : Created to_) {mt mi : Buf K} (et : getInterp to_ = .ok (some mt))
    (ei : getInterp from_ = .ok (some mi)) (hP : Projects b from_ to_ .interp mt mi) (hnc : b.nc = from_.nc) (hnc' : to_.nc = from_.nc)
    (hH : b.isH1 = true) (hQ : to_.Q = from_.Q) (hq : to_.qComp .interp = from_.qComp .interp)
    (hC : Contains to_.rows from_.P to_.P (fun r p => mi.val (r * from_.P + p)) (fun r n => mt.val (r * to_.P + n)))
    (junk : Nat → Nat → K) {ne : Nat} {u v w : Buf K} (hu : ne * from_.nc * from_.P ≤ u.len) (hv : ne * to_.nc * to_.P ≤ v.len)
    (hw : ne * to_.Q * to_.nc * to_.qComp .interp ≤ w.len) :
    ∃ v' w' w'', apply b junk ne .noTranspose .interp (some u) v = .ok v' ∧ apply to_ junk ne .noTranspose .interp (some v') w = .ok w' ∧
      apply from_ junk ne .noTranspose .interp (some u) w = .ok w'' ∧
      ∀ c < to_.qComp .interp, ∀ k < to_.nc, ∀ q < to_.Q, ∀ e < ne,
        w'.val (quadPos to_.nc to_.Q ne c k q e) = w''.val (quadPos from_.nc from_.Q ne c k q e) := by
  obtain ⟨_, _, _, _, ⟨mi', ei', _, mulF⟩, _⟩ := created_mats hf
  obtain ⟨_, _, _, _, ⟨mt', et', _, mulT⟩, _⟩ := created_mats ht
  rw [ei] at ei'; rw [et] at et'
  injection ei' with ei'; injection ei' with ei'; subst ei'
  injection et' with et'; injection et' with et'; subst et'
  have hb1 : b.qComp .interp = 1 := by simp [Bas.qComp, hH]
  obtain ⟨v', e1, l1, h1⟩ := hP junk ne u v (by rw [hnc]; exact hu) (by
    rw [hb1, hnc, ← hnc']; refine le_trans (le_of_eq ?_) hv; ring)
  obtain ⟨w', e2, _, h2, _⟩ := mulT junk ne v' w (by rw [l1]; exact hv) hw
  obtain ⟨w'', e3, _, h3, _⟩ := mulF junk ne u w hu (by rw [← hQ, ← hq, ← hnc']; exact hw)
  refine ⟨v', w', w'', e1, e2, e3, fun c hc k hk q hq' e he => ?_⟩
  rw [h2 c hc k hk q hq' e he, h3 c (hq ▸ hc) k (hnc' ▸ hk) q (hQ ▸ hq') e he]
  obtain ⟨y, hy⟩ := hC (fun p => u.val (nodePos from_.P ne k p e))
  have hb := h1 0 (by omega) k (by rw [hnc, ← hnc']; exact hk) e he
  have hex := hb.eq_of_exact (z := y) (fun r hr => by rw [hy r hr, Nat.zero_mul, Nat.zero_add])
  have hrow : c * to_.Q + q < to_.rows := by
    unfold Bas.rows
    calc c * to_.Q + q < c * to_.Q + to_.Q := by omega
      _ = (c + 1) * to_.Q := by ring
      _ ≤ to_.qComp .interp * to_.Q := Nat.mul_le_mul_right _ hc
  unfold rowTimes
  rw [← hQ, ← hy _ hrow]
  refine sum_congr rfl fun n hn => ?_
  have := hex n (mem_range.1 hn)
  simp only [Nat.zero_mul, Nat.zero_add] at this
  rw [this]

theorem identity_of {b a : Bas K} {m : Buf K} (hP : Projects b a a .interp m m)
    (hH : b.isH1 = true) (junk : Nat → Nat → K) {ne : Nat} {u v : Buf K} (hu : ne * b.nc * a.P ≤ u.len) (hv : ne * b.nc * a.P ≤ v.len) :
    ∃ v', apply b junk ne .noTranspose .interp (some u) v = .ok v' ∧
      ∀ k < b.nc, ∀ n < a.P, ∀ e < ne, v'.val (nodePos a.P ne k n e) = u.val (nodePos a.P ne k n e) := by
  have hb1 : b.qComp .interp = 1 := by simp [Bas.qComp, hH]
  obtain ⟨v', e1, _, h1⟩ := hP junk ne u v hu (by rw [hb1]; refine le_trans (le_of_eq ?_) hv; ring)
  refine ⟨v', e1, fun k hk n hn e he => ?_⟩
  have hb := h1 0 (by omega) k hk e he
  have := hb.eq_of_exact (z := fun n => u.val (nodePos a.P ne k n e)) (fun r _ => by rw [Nat.zero_mul, Nat.zero_add]) n hn
  simpa only [Nat.zero_mul, Nat.zero_add] using this

theorem projection_h1 {env : PEnv K} {from_ to_ b : Bas K} (h : createProjection env from_ to_ = .ok b) : b.isH1 = true := by
  unfold createProjection at h
  obtain ⟨⟨ip, gp⟩, _, h⟩ := Res.bind_eq_ok.1 h
  simp only [] at h
  split at h
  · unfold createTensorH1 at h
    simp only [Res.bind_eq_ok, Res.check_eq_ok] at h
    obtain ⟨_, _, _, _, _, _, _, _, _, _, _, _, _, _, _, _, _, _, h⟩ := h
    injection h with h
    subst h; rfl
  · unfold createNonTensor at h
    simp only [Res.bind_eq_ok, Res.check_eq_ok] at h
    obtain ⟨_, _, _, _, _, _, _, _, _, _, _, _, h⟩ := h
    injection h with h
    subst h; rfl

/-- Containment in 1D gives containment of the products. -/
theorem contains_tensor {Q Pf Pt : Nat} {A B : Nat → Nat → K} (dim : Nat) (hQ : 0 < Q) (hPt : 0 < Pt) (hPf : 0 < Pf) (h : Contains Q Pf Pt B A) :
    Contains (Q ^ dim) (Pf ^ dim) (Pt ^ dim) (fun r p => ∏ d ∈ range dim, B (coord Q d r) (coord Pf d p))
      (fun r n => ∏ d ∈ range dim, A (coord Q d r) (coord Pt d n)) := by
  have hY : ∀ p, ∃ y : Nat → K, ∀ r < Q, ∑ n ∈ range Pt, A r n * y n = if p < Pf then B r p else 0 := by
    intro p
    obtain ⟨y, hy⟩ := h (fun j => if j = p then 1 else 0)
    refine ⟨y, fun r hr => ?_⟩
    rw [hy r hr]
    simp only [mul_ite, mul_one, mul_zero]
    rw [sum_ite_eq' (range Pf) p]
    simp only [mem_range]
  choose Y hY using hY
  intro x
  refine ⟨fun n => ∑ p ∈ range (Pf ^ dim), (∏ d ∈ range dim, Y (coord Pf d p) (coord Pt d n)) * x p, fun r _ => ?_⟩
  exact (kron_fit (dim := dim) (Q := Pt) (Pf := Pf) (Pt := Q) hPt (X := A) (H := fun _ n p => Y p n) (M := fun _ r p => B r p)
    (fun d _ r hr p hp => by rw [hY p r hr, if_pos hp]) hQ hPf x r).symm

/-- C57: if every function of `from_` is at the points a function of `to_`, then projecting and then interpolating with `to_` gives at the
quadrature points what interpolating with `from_` gives. Bases not both tensor bases, with the same number of components. -/
theorem C57_exact_nontensor {env : PEnv K} (hsq : IsSqrt env.sqrt) (htiny : ∀ x, env.tiny x = true → x = 0) {from_ to_ : Bas K}
    (hf : Created from_) (ht : Created to_) (hnt : ¬(to_.isTensor = true ∧ from_.isTensor = true)) (hQ : to_.Q = from_.Q)
    (hsp : to_.space = from_.space) (hdim : to_.dim = from_.dim) (hnc : to_.nc = from_.nc) {mt mi : Buf K}
    (emt : getInterp to_ = .ok (some mt)) (emi : getInterp from_ = .ok (some mi))
    (hS : Separates to_.rows to_.P (fun r n => mt.val (r * to_.P + n)))
    (hC : Contains to_.rows from_.P to_.P (fun r p => mi.val (r * from_.P + p)) (fun r n => mt.val (r * to_.P + n))) :
    ∃ b, createProjection env from_ to_ = .ok b ∧ ∀ (junk : Nat → Nat → K) (ne : Nat) (u v w : Buf K),
      ne * from_.nc * from_.P ≤ u.len → ne * to_.nc * to_.P ≤ v.len → ne * to_.Q * to_.nc * to_.qComp .interp ≤ w.len →
      ∃ v' w' w'', apply b junk ne .noTranspose .interp (some u) v = .ok v' ∧ apply to_ junk ne .noTranspose .interp (some v') w = .ok w' ∧
        apply from_ junk ne .noTranspose .interp (some u) w = .ok w'' ∧
        ∀ c < to_.qComp .interp, ∀ k < to_.nc, ∀ q < to_.Q, ∀ e < ne,
          w'.val (quadPos to_.nc to_.Q ne c k q e) = w''.val (quadPos from_.nc from_.Q ne c k q e) := by
  obtain ⟨b, mi', e, ei, _, _, bnc, _, _, _, hP, _⟩ := C57_nontensor hsq htiny hf ht hnt hQ hsp (fun _ => hdim) emt hS
  rw [emi] at ei
  injection ei with ei; injection ei with ei; subst ei
  have hH : b.isH1 = true := projection_h1 e
  have hq : to_.qComp .interp = from_.qComp .interp := by
    by_cases hh : from_.space = .h1
    · obtain ⟨_, _, _, fq, _⟩ := created_mats hf
      obtain ⟨_, _, _, tq, _⟩ := created_mats ht
      rw [fq hh, tq (hsp.trans hh)]
    · have h1 : to_.space ≠ .h1 := hsp ▸ hh
      have n1 : from_.isH1 = false := by
        by_contra hc; exact hh (by simp only [Bas.space]; rw [if_pos (by simpa using hc)])
      have n2 : to_.isH1 = false := by
        by_contra hc; exact h1 (by simp only [Bas.space]; rw [if_pos (by simpa using hc)])
      simp only [Bas.qComp, n1, n2, hdim]
  exact ⟨b, e, fun junk ne u v w hu hv hw => exact_of hf ht emt emi hP bnc hnc hH hQ hq hC junk hu hv hw⟩

/-- C57: the same for two tensor bases, with the condition on the functions in 1D only. -/
theorem C57_exact_tensor {env : PEnv K} (hsq : IsSqrt env.sqrt) (htiny : ∀ x, env.tiny x = true → x = 0)
    (hnear : ∀ x, env.near x = true → x = 0) {from_ to_ : Bas K} {iF gF wF iT gT wT : Buf K} (hf : TensorBasis from_ iF gF wF)
    (ht : TensorBasis to_ iT gT wT) (hdim : to_.dim = from_.dim) (hQ1 : to_.Q1 = from_.Q1) (hnc : to_.nc = from_.nc)
    (hS : Separates to_.Q1 to_.P1 (fun r n => iT.val (r * to_.P1 + n)))
    (hS' : Separates to_.Q1 from_.P1 (fun r p => iF.val (r * from_.P1 + p)))
    (hC : Contains to_.Q1 from_.P1 to_.P1 (fun r p => iF.val (r * from_.P1 + p)) (fun r n => iT.val (r * to_.P1 + n))) :
    ∃ b, createProjection env from_ to_ = .ok b ∧ ∀ (junk : Nat → Nat → K) (ne : Nat) (u v w : Buf K),
      ne * from_.nc * from_.P ≤ u.len → ne * to_.nc * to_.P ≤ v.len → ne * to_.Q * to_.nc * to_.qComp .interp ≤ w.len →
      ∃ v' w' w'', apply b junk ne .noTranspose .interp (some u) v = .ok v' ∧ apply to_ junk ne .noTranspose .interp (some v') w = .ok w' ∧
        apply from_ junk ne .noTranspose .interp (some u) w = .ok w'' ∧
        ∀ c < to_.qComp .interp, ∀ k < to_.nc, ∀ q < to_.Q, ∀ e < ne,
          w'.val (quadPos to_.nc to_.Q ne c k q e) = w''.val (quadPos from_.nc from_.Q ne c k q e) := by
  obtain ⟨b, mt, mi, mg, e, et, ei, _, _, _, bnc, _, _, _, hP, _⟩ := C57_tensor hsq htiny hnear hf ht hdim hQ1 hS
    (fun _ => C57_nested hS' hC)
  obtain ⟨fT, _⟩ := tensorOK_of hf
  obtain ⟨tT, _⟩ := tensorOK_of ht
  have hH : b.isH1 = true := projection_h1 e
  obtain ⟨mt', et', at_, _⟩ := C21_interp_partial ht
  obtain ⟨mi', ei', ai, _⟩ := C21_interp_partial hf
  rw [et] at et'; rw [ei] at ei'
  injection et' with et'; injection et' with et'; subst et'
  injection ei' with ei'; injection ei' with ei'; subst ei'
  have hQ : to_.Q = from_.Q := by rw [tT.hQ, fT.hQ, hdim, hQ1]
  have hrows : to_.rows = to_.Q1 ^ to_.dim := by
    unfold Bas.rows
    rw [show to_.qComp .interp = 1 by simp [Bas.qComp, tT.h1], Nat.one_mul, tT.hQ]
  have hcont := contains_tensor to_.dim tT.Q1 tT.P1 fT.P1 hC
  refine ⟨b, e, fun junk ne u v w hu hv hw => exact_of (Or.inl ⟨_, _, _, hf⟩) (Or.inl ⟨_, _, _, ht⟩) et ei hP bnc hnc hH hQ
    (by simp [Bas.qComp, tT.h1, fT.h1]) ?_ junk hu hv hw⟩
  intro x
  obtain ⟨y, hy⟩ := hcont x
  refine ⟨y, fun r hr => ?_⟩
  have hr' : r < to_.Q := by rw [tT.hQ, ← hrows]; exact hr
  have := hy r (by rw [← hrows]; exact hr)
  rw [← tT.hP] at this
  rw [show from_.P1 ^ to_.dim = from_.P by rw [hdim, ← fT.hP]] at this
  refine Eq.trans (sum_congr rfl fun n hn => ?_) (this.trans (sum_congr rfl fun p hp => ?_))
  · simp only []
    rw [at_ r hr' n (mem_range.1 hn)]
  · simp only []
    rw [ai r (hQ ▸ hr') p (mem_range.1 hp), hdim, hQ1]

/-- C57: projection from a basis to itself succeeds and leaves the node values as they are (not a tensor basis). -/
theorem C57_identity_nontensor {env : PEnv K} (hsq : IsSqrt env.sqrt) (htiny : ∀ x, env.tiny x = true → x = 0) {a : Bas K}
    (ha : Created a) (hnt : a.isTensor = false) {m : Buf K} (em : getInterp a = .ok (some m))
    (hS : Separates a.rows a.P (fun r n => m.val (r * a.P + n))) :
    ∃ b, createProjection env a a = .ok b ∧ ∀ (junk : Nat → Nat → K) (ne : Nat) (u v : Buf K),
      ne * a.nc * a.P ≤ u.len → ne * a.nc * a.P ≤ v.len → ∃ v', apply b junk ne .noTranspose .interp (some u) v = .ok v' ∧
      ∀ k < a.nc, ∀ n < a.P, ∀ e < ne, v'.val (nodePos a.P ne k n e) = u.val (nodePos a.P ne k n e) := by
  obtain ⟨b, mi', e, ei, _, _, bnc, _, _, _, hP, _⟩ := C57_nontensor hsq htiny ha ha (by simp [hnt]) rfl rfl (fun _ => rfl) em hS
  rw [em] at ei
  injection ei with ei; injection ei with ei; subst ei
  refine ⟨b, e, fun junk ne u v hu hv => ?_⟩
  rw [← bnc] at hu hv ⊢
  exact identity_of hP (projection_h1 e) junk hu hv

/-- C57: projection from a tensor basis to itself succeeds and leaves the node values as they are. -/
theorem C57_identity_tensor {env : PEnv K} (hsq : IsSqrt env.sqrt) (htiny : ∀ x, env.tiny x = true → x = 0)
    (hnear : ∀ x, env.near x = true → x = 0) {a : Bas K} {i1 g1 w1 : Buf K} (ha : TensorBasis a i1 g1 w1)
    (hS : Separates a.Q1 a.P1 (fun r n => i1.val (r * a.P1 + n))) :
    ∃ b, createProjection env a a = .ok b ∧ ∀ (junk : Nat → Nat → K) (ne : Nat) (u v : Buf K),
      ne * a.nc * a.P ≤ u.len → ne * a.nc * a.P ≤ v.len → ∃ v', apply b junk ne .noTranspose .interp (some u) v = .ok v' ∧
      ∀ k < a.nc, ∀ n < a.P, ∀ e < ne, v'.val (nodePos a.P ne k n e) = u.val (nodePos a.P ne k n e) := by
  obtain ⟨b, mt, mi, mg, e, et, ei, _, _, _, bnc, _, _, _, hP, _⟩ := C57_tensor hsq htiny hnear ha ha rfl rfl hS
    (fun _ => C57_nested hS fun x => ⟨x, fun _ _ => rfl⟩)
  rw [et] at ei
  injection ei with ei; injection ei with ei; subst ei
  refine ⟨b, e, fun junk ne u v hu hv => ?_⟩
  rw [← bnc] at hu hv ⊢
  exact identity_of hP (projection_h1 e) junk hu hv

/-- C57: bases with different numbers of quadrature points are rejected. -/
theorem C57_points_rejected (env : PEnv K) {from_ to_ : Bas K} (h : to_.Q ≠ from_.Q) :
    createProjection env from_ to_ = .err .dimension := by
  unfold createProjection projectMatrices
  rw [Res.check_false h]; rfl

/-- C57: bases of different spaces are rejected. -/
theorem C57_space_rejected (env : PEnv K) {from_ to_ : Bas K} (hQ : to_.Q = from_.Q) (h : to_.space ≠ from_.space) :
    createProjection env from_ to_ = .err .minor := by
  unfold createProjection projectMatrices
  rw [Res.check_true hQ, Res.bind_ok, Res.check_false h]; rfl

end Basis
end Verif
