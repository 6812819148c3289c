import Verif.Operator.FdmProps
import Verif.Operator.MultigridApply

/-!
# C67: applying the element inverse
-/

set_option linter.unusedSectionVars false

namespace Verif
namespace Operator

open Finset
open Restriction (Rstr RData Made)
open Basis (Bas EMode MulBy MulByT AddByT TensorBasis coord coord_lt)

variable {K : Type} [Field K] [LinearOrder K]
variable {env : FEnv K} {op : Oper K} {r : Nat} {l : Int} {D : RData K} {b : Bas K} {i1 g1 w : Buf K} {ρ μ : Nat} {fd : Fdm K}
  {X lam : Buf K} {a : Nat → K}

/-! ## Helpers -/

/-- The QFunction of the new operator. -/
def fdmQ (nc : Nat) : QFunction.QFunc :=
  ⟨1, [⟨"input".toList, nc, .interp⟩, ⟨"scale".toList, nc, .none⟩], [⟨"output".toList, nc, .interp⟩], false⟩

theorem fdmQ_run (nc : Nat) : runOn (do
    QFunction.addInput "input".toList nc .interp
    QFunction.addInput "scale".toList nc .none
    QFunction.addOutput "output".toList nc .interp) (QFunction.QFunc.create 1) = .ok (fdmQ nc) := rfl

theorem runOn_bind {σ β γ : Type _} {m : M σ β} {f : β → M σ γ} {s s1 s' : σ} {x : β} (h : m s = .ok s1 x)
    (h' : runOn (f x) s1 = .ok s') : runOn (m >>= f) s = .ok s' := by
  unfold runOn at h' ⊢
  rw [M.bind_apply, h, Out.bind_ok]
  exact h'

/-- The operator that the backend sees at the first use. -/
theorem fdmOper_ok {rs : Nat → Rstr} {nc : Nat} {fb : Bas K} {o s : OpI K} (e : fdmOper rs nc (some r) ρ μ fb = .ok o)
    (er : runOn checkReady o = .ok s) (hQ : 0 < fb.Q) (F : (Nat → Nat → K) → Nat → Nat → K) :
    ((rs r).numComp = fb.nc ∧ nc = fb.nc * fb.qComp .interp ∧ (rs ρ).numComp = nc) ∧
    (rs ρ).numElem = (rs r).numElem ∧ (rs ρ).elemSize = fb.Q ∧
    (s.oper rs false F).ne = (rs r).numElem.toNat ∧ (s.oper rs false F).Q = fb.Q ∧ (s.oper rs false F).nin = 2 ∧
    (s.oper rs false F).nout = 1 ∧ (s.oper rs false F).inp 0 = ⟨.active, some r, some fb, .interp, nc⟩ ∧
    (s.oper rs false F).inp 1 = ⟨.vec μ, some ρ, none, .none, nc⟩ ∧
    (s.oper rs false F).out 0 = ⟨.active, some r, some fb, .interp, nc⟩ := by
  unfold fdmOper at e
  rw [fdmQ_run, Res.bind_ok] at e
  obtain ⟨t1, _, c1, e⟩ := runOn_bind_ok e
  obtain ⟨t2, _, c2, e⟩ := runOn_bind_ok e
  obtain ⟨_, c3⟩ := runOn_ok e
  have e' := runOn_bind c1 (f := fun _ => setField rs "scale".toList (.obj ρ) .none (some (.vec μ)) >>= fun _ =>
    setField rs "output".toList (argOf (some r)) (.obj fb) (some .active) >>= fun _ => checkReady)
    (runOn_bind c2 (runOn_bind c3 er))
  obtain ⟨⟨u1, u2, u3⟩, ⟨h1, h2⟩, ⟨h3, h4⟩, h5, h6, h7, h8, h9, h10, h11⟩ :=
    three_fields (q := fdmQ nc) (f1 := ⟨"input".toList, nc, .interp⟩) (f2 := ⟨"scale".toList, nc, .none⟩)
      (f3 := ⟨"output".toList, nc, .interp⟩) rfl rfl (by simp) e' hQ F
  have a1 := u1.comps r fb rfl rfl
  have a2 := u1.values (by simp) (by simp) fb rfl
  have a3 := u2.direct rfl ρ rfl
  simp only at a2 a3
  exact ⟨⟨a1, by exact_mod_cast a2, by omega⟩, h1, h3, h5, h6, h7, h8, h9, h10, h11⟩

/-- Data of the restriction of the scales. -/
def scaleData (D : RData K) : RData K := Restriction.stridedData D.ne D.es D.nc (1, (D.es : Int), (D.es * D.nc : Nat))

theorem scaleData_row (D : RData K) (u : Nat → K) {e k n : Nat} (hn : n < D.es) :
    (scaleData D).row u e k n = u ((e * D.nc + k) * D.es + n) := by
  unfold scaleData RData.row Restriction.stridedData
  simp only [Restriction.idCoef, ite_mul, one_mul, zero_mul]
  rw [sum_ite_eq' (range D.es) n, if_pos (mem_range.2 hn), if_neg (by simp)]
  congr 1
  have : ((n : Int) * 1 + k * D.es + e * ((D.es * D.nc : Nat) : Int)) = (((e * D.nc + k) * D.es + n : Nat) : Int) := by
    push_cast; ring
  rw [this, Int.toNat_natCast]

theorem scaleData_made {rr : Rstr}
    (h : Restriction.createStrided D.ne D.es D.nc ((D.ne : Int) * D.nc * D.es) (1, (D.es : Int), (D.es * D.nc : Nat)) = .ok rr) :
    Made .plain rr 1 ((D.ne : Int) * D.nc * D.es) (scaleData D) := by
  refine Made.strided h (.inr fun e he m hm k hk => ?_)
  have h1 : ((m : Int) * 1 + k * D.es + e * ((D.es * D.nc : Nat) : Int)) = (((e * D.nc + k) * D.es + m : Nat) : Int) := by
    push_cast; ring
  have h2 : (e * D.nc + k) * D.es + m < D.ne * D.nc * D.es := by
    calc (e * D.nc + k) * D.es + m < (e * D.nc + k + 1) * D.es := by rw [Nat.add_mul (e * D.nc + k)]; omega
      _ ≤ (D.ne * D.nc) * D.es := Nat.mul_le_mul_right _ (by
        calc e * D.nc + k + 1 ≤ (e + 1) * D.nc := by rw [Nat.add_mul]; omega
          _ ≤ _ := Nat.mul_le_mul_right _ he)
  dsimp only
  rw [h1]
  exact ⟨by positivity, by exact_mod_cast h2⟩

/-- Meaning of the fields of the new operator. -/
def fdmMeaning (D : RData K) (ρ : Nat) (m : Buf K) : Meaning K where
  D := Function.update (fun _ => D) ρ (scaleData D)
  mIn := fun _ => m
  mOut := fun _ => m
  w := fun _ _ => 0

/-- The matrix of the new basis. -/
theorem IsFdm.matrix (h : FdmOK env op r l D b i1 g1 w ρ) (hf : IsFdm env op r D b i1 g1 w ρ μ fd X lam a) :
    ∃ m, (∀ q < D.es, ∀ n < D.es, m.val (q * D.es + n) = kronAll (fun i j => X.val (i * b.P1 + j)) b.P1 b.dim n q) ∧
      MulBy fd.basis .interp m ∧ MulByT fd.basis .interp m ∧ fd.basis.P = D.es ∧ fd.basis.Q = D.es ∧ fd.basis.nc = D.nc ∧
      fd.basis.qComp .interp = 1 ∧ 0 < D.es := by
  obtain ⟨t, g, z, hb, ht⟩ := hf.basis
  obtain ⟨d1, d2, d3, d4⟩ := hf.dims
  obtain ⟨hT, -, -, -⟩ := Basis.tensorOK_of hb
  obtain ⟨hT', -, -, -⟩ := Basis.tensorOK_of h.tensor
  obtain ⟨m, _, m2, m3, m4⟩ := Basis.C21_interp_partial hb
  have hP : fd.basis.P = D.es := by rw [hT.hP, d3, d1, ← hT'.hP, h.nodes]
  have hQ : fd.basis.Q = D.es := by rw [hT.hQ, d4, d1, ← hT'.hP, h.nodes]
  refine ⟨m, fun q hq n hn => ?_, m3, m4, hP, hQ, by rw [d2, h.comps], by simp [Basis.Bas.qComp, hT.h1], ?_⟩
  · rw [← hP, m2 q (by omega) n (by omega), d1, d3, d4]
    unfold kronAll
    exact prod_congr rfl fun d _ => ht _ (coord_lt hT'.P1 _ _) _ (coord_lt hT'.P1 _ _)
  · rw [← h.nodes, hT'.hP]; exact Nat.pow_pos hT'.P1

section
variable {o : OpI K}

/-- The operator and its parts, at the first use. -/
theorem fdm_ready (h : FdmOK env op r l D b i1 g1 w ρ) (hf : IsFdm env op r D b i1 g1 w ρ μ fd X lam a)
    (er : runOn checkReady fd.op = .ok o) {m : Buf K} (hm : MulBy fd.basis .interp m ∧ MulByT fd.basis .interp m) :
    OpOK (o.oper (Function.update op.rstrs ρ fd.rstr) false scaleF) (fdmMeaning D ρ m) ∧
    (o.oper (Function.update op.rstrs ρ fd.rstr) false scaleF).Q = D.es ∧
    (o.oper (Function.update op.rstrs ρ fd.rstr) false scaleF).nin = 2 ∧
    (o.oper (Function.update op.rstrs ρ fd.rstr) false scaleF).nout = 1 ∧
    (o.oper (Function.update op.rstrs ρ fd.rstr) false scaleF).inp 0 = ⟨.active, some r, some fd.basis, .interp, D.nc⟩ ∧
    (o.oper (Function.update op.rstrs ρ fd.rstr) false scaleF).inp 1 = ⟨.vec μ, some ρ, none, .none, D.nc⟩ ∧
    (o.oper (Function.update op.rstrs ρ fd.rstr) false scaleF).out 0 = ⟨.active, some r, some fd.basis, .interp, D.nc⟩ := by
  obtain ⟨_, -, -, -, hP, hQ, hnc, hqc, hpos⟩ := hf.matrix h
  obtain ⟨⟨c1, c2, c3⟩, c4, c5, c6, c7, c8, c9, c10, c11, c12⟩ :=
    fdmOper_ok hf.oper er (by rw [hQ]; exact hpos) scaleF
  rw [hQ] at c7
  have hr : Function.update op.rstrs ρ fd.rstr r = op.rstrs r := Function.update_of_ne (Ne.symm h.new) _ _
  have hDr : (fdmMeaning D ρ m).D r = D := by
    show Function.update (fun _ => D) ρ (scaleData D) r = D
    rw [Function.update_of_ne (Ne.symm h.new)]
  have hDρ : (fdmMeaning D ρ m).D ρ = scaleData D := by
    show Function.update (fun _ => D) ρ (scaleData D) ρ = _
    rw [Function.update_self]
  have hne : (o.oper (Function.update op.rstrs ρ fd.rstr) false scaleF).ne = D.ne := by
    rw [c6, hr, h.made.rep.1.ne]; simp
  refine ⟨?_, c7, c8, c9, c10, c11, c12⟩
  have hfit : Fits (o.oper (Function.update op.rstrs ρ fd.rstr) false scaleF) (fdmMeaning D ρ m)
      ⟨.active, some r, some fd.basis, .interp, D.nc⟩ fd.basis := by
    refine ⟨rfl, ?_, ?_, by rw [hQ, c7], ?_⟩
    · show _ = ((fdmMeaning D ρ m).D r).es
      rw [hDr, hP]
    · show _ = ((fdmMeaning D ρ m).D r).nc
      rw [hDr, hnc]
    · show _ = ((fdmMeaning D ρ m).D r).nc * fd.basis.qComp .interp
      rw [hDr, hqc, Nat.mul_one]
  have hrs : HasRstr (o.oper (Function.update op.rstrs ρ fd.rstr) false scaleF) (fdmMeaning D ρ m)
      ⟨.active, some r, some fd.basis, .interp, D.nc⟩ := by
    refine ⟨r, l, rfl, ?_, ?_⟩
    · rw [hDr]
      show Made .plain (Function.update op.rstrs ρ fd.rstr r) 1 l D
      rw [hr]; exact h.made
    · rw [hDr, hne]
  constructor
  · intro i hi
    rw [c8] at hi
    rcases (by omega : i = 0 ∨ i = 1) with rfl | rfl
    · unfold InOK
      rw [c10]
      exact ⟨hrs, fd.basis, hfit, hm.1⟩
    · unfold InOK
      rw [c11]
      refine ⟨⟨ρ, (D.ne : Int) * D.nc * D.es, rfl, ?_, ?_⟩, ?_, ?_⟩
      · rw [hDρ]
        show Made .plain (Function.update op.rstrs ρ fd.rstr ρ) 1 _ _
        rw [Function.update_self]
        exact scaleData_made hf.rstr
      · rw [hDρ, hne]; rfl
      · show ((fdmMeaning D ρ m).D ρ).es = _
        rw [hDρ, c7]; rfl
      · show _ = ((fdmMeaning D ρ m).D ρ).nc
        rw [hDρ]; rfl
  · intro i hi
    rw [c9] at hi
    obtain rfl : i = 0 := by omega
    unfold OutOK
    rw [c12]
    refine ⟨hrs, fd.basis, hfit, hm.2, ?_⟩
    rintro ⟨j, hj, _⟩; omega
  · intro i j hij hj hs
    rw [c8] at hj
    obtain ⟨rfl, rfl⟩ : i = 0 ∧ j = 1 := by omega
    rw [c10, c11] at hs
    simp [OField.same] at hs
  · intro j i hji hi
    rw [c9] at hi; omega
  · intro hi
    cases hi

/-! ## Properties -/

/-- **C67.** After any history of the new operator, a successful application stores, summed over elements, the matrix
`X⊗…⊗X diag(s) (X⊗…⊗X)ᵀ` times the restriction of the input, where `s` are the scales in `q_data`. -/
theorem C67_apply (h : FdmOK env op r l D b i1 g1 w ρ) (hf : IsFdm env op r D b i1 g1 w ρ μ fd X lam a)
    (er : runOn checkReady fd.op = .ok o) {s s' : St K} {junk : Nat → Nat → K} {u x : Nat}
    (hs : Reach (o.oper (Function.update op.rstrs ρ fd.rstr) false scaleF) True s)
    (e : apply (o.oper (Function.update op.rstrs ρ fd.rstr) false scaleF) junk (.vec u) (.vec x) s = .ok s' ())
    (hux : u ≠ x ∧ x ≠ μ) (t : Nat) :
    s'.L x t = spread D (fun e k n => ∑ p ∈ range D.es,
      fdmMat (fun i j => X.val (i * b.P1 + j)) (fun q => s.L μ ((e * D.nc + k) * D.es + q)) b.P1 b.dim n p * D.row (s.L u) e k p) t := by
  obtain ⟨m, hmv, m1, m2, hP, hQ, hnc, hqc, hpos⟩ := hf.matrix h
  obtain ⟨hok, c7, c8, c9, c10, c11, c12⟩ := fdm_ready h hf er ⟨m1, m2⟩
  have hN : b.P1 ^ b.dim = D.es := by rw [← (Basis.tensorOK_of h.tensor).1.hP, h.nodes]
  generalize hoper : o.oper (Function.update op.rstrs ρ fd.rstr) false scaleF = O at *
  have hO : O.isId = false ∧ O.f = scaleF := by rw [← hoper]; exact ⟨rfl, rfl⟩
  have hna : NoAlias O (.vec u) (.vec x) := by
    intro i hi j hj _
    rw [c8] at hi
    rw [c9] at hj
    obtain rfl : j = 0 := by omega
    rw [c12]
    rcases (by omega : i = 0 ∨ i = 1) with rfl | rfl
    · rw [c10]
      intro hh
      simp only [FVec.ptr, VPtr.vec.injEq] at hh
      exact hux.1 hh
    · rw [c11]
      intro hh
      simp only [FVec.ptr, VPtr.vec.injEq] at hh
      exact hux.2 hh.symm
  rw [(C37_apply hok hs hna e).1 x ⟨0, by rw [c9]; omega, by rw [c12]; rfl⟩ t]
  have hDr : (fdmMeaning D ρ m).D r = D := by
    show Function.update (fun _ => D) ρ (scaleData D) r = D
    rw [Function.update_of_ne (Ne.symm h.new)]
  have hDρ : (fdmMeaning D ρ m).D ρ = scaleData D := by
    show Function.update (fun _ => D) ρ (scaleData D) ρ = _
    rw [Function.update_self]
  unfold Meaning.action
  rw [c9, sum_range_one, c12]
  simp only [FVec.ptr, if_true]
  unfold Meaning.adds spread
  have hd : (fdmMeaning D ρ m).dat (O.out 0) = D := by rw [c12]; exact hDr
  simp only [hd]
  refine sum_congr rfl fun e _ => sum_congr rfl fun k hk => sum_congr rfl fun n hn => sum_congr rfl fun p _ => ?_
  rw [mem_range] at hk hn
  congr 2
  unfold Meaning.elemOut
  simp only [hd]
  rw [c12]
  simp only [OField.qc]
  rw [hqc, sum_range_one, c7]
  unfold fdmMat
  simp only [sum_mul]
  rw [sum_comm, hN]
  refine sum_congr rfl fun q hq => ?_
  rw [mem_range] at hq
  rw [Nat.zero_mul, Nat.zero_mul, Nat.zero_add, Nat.zero_add]
  have hx : k * D.es + q < D.es * D.nc := by
    rw [Nat.mul_comm D.es]
    calc k * D.es + q < k * D.es + D.es := by omega
      _ = (k + 1) * D.es := by ring
      _ ≤ D.nc * D.es := Nat.mul_le_mul_right _ hk
  have hdiv : (k * D.es + q) / D.es = k := div_enc hq
  have hmod : (k * D.es + q) % D.es = q := mod_enc hq
  rw [show (fdmMeaning D ρ m).mOut 0 = m from rfl, hmv q hq n hn]
  unfold Meaning.outArr
  rw [hO.1, hO.2]
  simp only [scaleF, Bool.false_eq_true, if_false]
  unfold Meaning.inArr
  rw [c8, c10, c11, c7, if_pos ⟨by omega, hx⟩, if_pos ⟨by omega, hx⟩]
  have hin0 : (fdmMeaning D ρ m).inVal O s.L (.vec u) e 0 (k * D.es + q) =
      ∑ p ∈ range D.es, kronAll (fun i j => X.val (i * b.P1 + j)) b.P1 b.dim p q * D.row (s.L u) e k p := by
    unfold Meaning.inVal
    rw [c10, c7]
    simp only [hdiv, hmod]
    have hd0 : (fdmMeaning D ρ m).dat ⟨.active, some r, some fd.basis, .interp, D.nc⟩ = D := hDr
    rw [hd0, Nat.div_eq_of_lt hk, Nat.mod_eq_of_lt hk, Nat.zero_mul, Nat.zero_add]
    refine sum_congr rfl fun p hp => ?_
    rw [show (fdmMeaning D ρ m).mIn 0 = m from rfl, hmv q hq p (mem_range.1 hp)]
    rfl
  have hin1 : (fdmMeaning D ρ m).inVal O s.L (.vec u) e 1 (k * D.es + q) = s.L μ ((e * D.nc + k) * D.es + q) := by
    unfold Meaning.inVal
    rw [c11, c7]
    simp only [hdiv, hmod]
    have hd1 : (fdmMeaning D ρ m).dat ⟨.vec μ, some ρ, none, .none, D.nc⟩ = scaleData D := hDρ
    rw [hd1]
    exact scaleData_row D _ hq
  rw [hin0, hin1, sum_mul, mul_sum]
  exact sum_congr rfl fun p _ => by ring

/-- **C67.** The new operator solves the separable element problems: if the eigenvalue solver returned exact eigenvectors
and no sum of eigenvalues had to be replaced by the bound, then an application to `u` stores the sum over elements of
solutions `y` of `a (c M⊗…⊗M + g Σ_d M⊗…⊗L⊗…⊗M) y = u` on each element, for each component. Here `a` is the average of the
element, `c` and `g` tell whether the operator interpolates and differentiates its active input, `M` and `L` are the 1D mass
and (perturbed) stiffness matrices. Missing for the claim that the operator inverts the element matrices of `op`: the solver
is exact only up to its tolerance (C64), the stiffness matrix is perturbed, and the coefficients of the operator have to be
those of `C67_average`. -/
theorem C67_inverse_partial (h : FdmOK env op r l D b i1 g1 w ρ) (hf : IsFdm env op r D b i1 g1 w ρ μ fd X lam a)
    (er : runOn checkReady fd.op = .ok o)
    (hM : ∀ p < b.P1, ∀ q < b.P1, cong (fun i j => X.val (i * b.P1 + j)) (quad1 i1 w b.P1 b.Q1) b.P1 p q = if p = q then 1 else 0)
    (hL : ∀ p < b.P1, ∀ q < b.P1, cong (fun i j => X.val (i * b.P1 + j)) (quadLap g1 w b.P1 b.Q1 b.dim) b.P1 p q =
      if p = q then lam.val p else 0)
    (hc : ∀ n < D.es, (D.es : K) * env.eps ≤ |ind (UsesMode op .interp) + ind (UsesMode op .grad) * eigSum lam.val b.P1 b.dim n|)
    {s s' : St K} {junk : Nat → Nat → K} {u x : Nat}
    (hs : Reach (o.oper (Function.update op.rstrs ρ fd.rstr) false scaleF) True s)
    (e : apply (o.oper (Function.update op.rstrs ρ fd.rstr) false scaleF) junk (.vec u) (.vec x) s = .ok s' ())
    (hux : u ≠ x ∧ x ≠ μ) (hμ : ∀ i < fd.qdata.len, s.L μ i = fd.qdata.val i) :
    ∃ y : Nat → Nat → Nat → K, (∀ t, s'.L x t = spread D y t) ∧
      ∀ e < D.ne, ∀ k < D.nc, ∀ n < D.es, ∑ m ∈ range D.es,
        a e * sepMat (ind (UsesMode op .interp)) (ind (UsesMode op .grad)) (quad1 i1 w b.P1 b.Q1) (quadLap g1 w b.P1 b.Q1 b.dim)
          b.P1 b.dim n m * y e k m = D.row (s.L u) e k n := by
  obtain ⟨hT, -, -, -⟩ := Basis.tensorOK_of h.tensor
  have hN : b.P1 ^ b.dim = D.es := by rw [← hT.hP, h.nodes]
  refine ⟨_, fun t => C67_apply h hf er hs e hux t, fun e he k hk n hn => ?_⟩
  have hcl : ∀ n < D.es, clampTo ((D.es : K) * env.eps) (ind (UsesMode op .interp) + ind (UsesMode op .grad) *
      eigSum lam.val b.P1 b.dim n) = ind (UsesMode op .interp) + ind (UsesMode op .grad) * eigSum lam.val b.P1 b.dim n := by
    intro n hn
    unfold clampTo
    rw [if_neg (not_lt.2 (hc n hn))]
  have hsc : ∀ q < D.es, a e * (ind (UsesMode op .interp) + ind (UsesMode op .grad) * eigSum lam.val b.P1 b.dim q) ≠ 0 ∧
      s.L μ ((e * D.nc + k) * D.es + q) = 1 / (a e * (ind (UsesMode op .interp) + ind (UsesMode op .grad) * eigSum lam.val b.P1 b.dim q)) := by
    intro q hq
    have := hf.scale e he k hk q hq
    rw [hcl q hq] at this
    refine ⟨this.1, ?_⟩
    rw [hμ _ ?_, this.2]
    rw [hf.len]
    calc (e * D.nc + k) * D.es + q < (e * D.nc + k + 1) * D.es := by rw [Nat.add_mul (e * D.nc + k)]; omega
      _ ≤ (D.ne * D.nc) * D.es := Nat.mul_le_mul_right _ (by
        calc e * D.nc + k + 1 ≤ (e + 1) * D.nc := by rw [Nat.add_mul]; omega
          _ ≤ _ := Nat.mul_le_mul_right _ he)
  have hfin := (fdm_inverse (c := ind (UsesMode op .interp)) (g := ind (UsesMode op .grad)) (a := a e)
    (s := fun q => s.L μ ((e * D.nc + k) * D.es + q)) hT.P1 b.dim hM hL (left_ne_zero_of_mul (hsc n hn).1)
    (fun q hq => right_ne_zero_of_mul (hsc q (by omega)).1) (fun q hq => (hsc q (by omega)).2)).1
  rw [hN] at hfin
  simp only [mul_sum]
  rw [sum_comm]
  simp only [← mul_assoc, ← sum_mul]
  have : ∀ p ∈ range D.es, (∑ m ∈ range D.es, a e * sepMat (ind (UsesMode op .interp)) (ind (UsesMode op .grad)) (quad1 i1 w b.P1 b.Q1)
      (quadLap g1 w b.P1 b.Q1 b.dim) b.P1 b.dim n m * fdmMat (fun i j => X.val (i * b.P1 + j))
        (fun q => s.L μ ((e * D.nc + k) * D.es + q)) b.P1 b.dim m p) * D.row (s.L u) e k p =
      if p = n then D.row (s.L u) e k p else 0 := by
    intro p hp
    rw [hfin n hn p (mem_range.1 hp)]
    by_cases hnp : n = p
    · rw [if_pos hnp, if_pos hnp.symm, one_mul]
    · rw [if_neg hnp, if_neg (Ne.symm hnp), zero_mul]
  rw [sum_congr rfl this, sum_ite_eq' (range D.es) n, if_pos (mem_range.2 hn)]

end

end Operator
end Verif
