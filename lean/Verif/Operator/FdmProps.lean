import Verif.Operator.FdmLemmas
import Verif.Basis.PointsBasis
import Verif.Basis.Props

/-!
# C67: element inverses by fast diagonalisation
-/

set_option linter.unusedSectionVars false

namespace Verif
namespace Operator

open Finset
open Restriction (Rstr RData Made)
open Basis (Bas EMode MulBy MulByT AddByT TensorBasis coord coord_lt)

variable {K : Type} [Field K] [LinearOrder K]

/-! ## Specification -/

/-- The first active input of `op` has the basis `b` and the restriction `r`, described by `D`; `b` is a tensor basis with
the 1D matrices `i1`, `g1` and weights `w`, and fits the restriction. The number of the new restriction is new, and the test
for collocated bases is exact. -/
structure FdmOK (env : FEnv K) (op : Oper K) (r : Nat) (l : Int) (D : RData K) (b : Bas K) (i1 g1 w : Buf K) (ρ : Nat) : Prop where
  first : ∃ i < op.nin, (op.inp i).vec = .active ∧ (∀ j < i, (op.inp j).vec ≠ .active) ∧ (op.inp i).basis = some b ∧ (op.inp i).rid = some r
  made : Made .plain (op.rstrs r) 1 l D
  tensor : TensorBasis b i1 g1 w
  nodes : b.P = D.es
  comps : b.nc = D.nc
  new : ρ ≠ r
  near : ∀ x, env.near x = true → x = 0

/-- Some active input is interpolated, or differentiated. -/
def UsesMode (op : Oper K) (m : EMode) : Prop := ∃ i < op.nin, (op.inp i).vec = .active ∧ (op.inp i).mode = m

/-- `1` if the condition holds, `0` otherwise. -/
noncomputable def ind (p : Prop) : K := by classical exact if p then 1 else 0

/-- `mx` is the largest magnitude in `v`. -/
def IsMax (v : Buf K) (mx : K) : Prop := 0 ≤ mx ∧ (∀ i < v.len, |v.val i| ≤ mx) ∧ (mx = 0 ∨ ∃ i < v.len, mx = |v.val i|)

/-- The eigenvalue problem: `X` and `lam` are what the library's solver returns for the 1D stiffness matrix, perturbed, and
the 1D mass matrix. -/
def FdmEig (env : FEnv K) (b : Bas K) (i1 g1 w X lam : Buf K) : Prop :=
  ∃ Lb Mb : Buf K, Lb.len = b.P1 * b.P1 ∧ Mb.len = b.P1 * b.P1 ∧
    (∀ i < b.P1, ∀ j < b.P1, Mb.val (i + j * b.P1) = quad1 i1 w b.P1 b.Q1 i j) ∧
    (∀ i < b.P1, ∀ j < b.P1, Lb.val (i + j * b.P1) = quadLap g1 w b.P1 b.Q1 b.dim i j) ∧
    Basis.simDiag env.sqrt env.tol env.v0 env.t0 env.v1 env.t1 Lb Mb ⟨b.P1 * b.P1, fun _ => 0⟩ ⟨b.P1, fun _ => 0⟩ b.P1 = .ok (X, lam)

/-- The averages: of the entries of the assembled QFunction `v` (with `cc` entries at each point) over `100 eps max|v|`. -/
def FdmAvg (env : FEnv K) (D : RData K) (b : Bas K) (w v : Buf K) (cc ni : Nat) (a : Nat → K) : Prop :=
  ∃ mx, IsMax v mx ∧ ∀ e < D.ne, a e = average (fun q i => v.val (q + i * b.Q + e * (b.Q * cc)))
    (fun q => ∏ d ∈ range b.dim, w.val (coord b.Q1 d q)) (mx * 100 * env.eps) b.Q ni

/-- What a successful call leaves behind, as far as the new operator is concerned. -/
structure IsFdm (env : FEnv K) (op : Oper K) (r : Nat) (D : RData K) (b : Bas K) (i1 g1 w : Buf K) (ρ μ : Nat)
    (fd : Fdm K) (X lam : Buf K) (a : Nat → K) : Prop where
  eig : FdmEig env b i1 g1 w X lam
  scale : ∀ e < D.ne, ∀ k < D.nc, ∀ n < D.es,
    a e * clampTo ((D.es : K) * env.eps) (ind (UsesMode op .interp) + ind (UsesMode op .grad) * eigSum lam.val b.P1 b.dim n) ≠ 0 ∧
    fd.qdata.val ((e * D.nc + k) * D.es + n) = 1 / (a e *
      clampTo ((D.es : K) * env.eps) (ind (UsesMode op .interp) + ind (UsesMode op .grad) * eigSum lam.val b.P1 b.dim n))
  len : fd.qdata.len = D.ne * D.nc * D.es
  basis : ∃ t g z, TensorBasis fd.basis t g z ∧ ∀ i < b.P1, ∀ j < b.P1, t.val (j * b.P1 + i) = X.val (i * b.P1 + j)
  dims : fd.basis.dim = b.dim ∧ fd.basis.nc = b.nc ∧ fd.basis.P1 = b.P1 ∧ fd.basis.Q1 = b.P1
  rstr : Restriction.createStrided D.ne D.es D.nc ((D.ne : Int) * D.nc * D.es) (1, (D.es : Int), (D.es * D.nc : Nat)) = .ok fd.rstr
  oper : fdmOper (Function.update op.rstrs ρ fd.rstr) D.nc (some r) ρ μ fd.basis = .ok fd.op

/-! ## Helpers -/

theorem scan_act (f : Nat → OField K) (n : Nat) : (∀ j < n, (f j).vec ≠ .active) ∧ (scanFields f n).act = Option.none ∨
    ∃ i < n, (f i).vec = .active ∧ (∀ j < i, (f j).vec ≠ .active) ∧ (scanFields f n).act = some ((f i).basis, (f i).rid) := by
  induction n with
  | zero => exact .inl ⟨fun j hj => absurd hj (by omega), rfl⟩
  | succ n ih =>
    by_cases h : (f n).vec = .active
    · right
      rcases ih with ⟨h1, h2⟩ | ⟨i, hi, h1, h2, h3⟩
      · refine ⟨n, by omega, h, h1, ?_⟩
        show (scanField (f n) (scanFields f n)).act = _
        unfold scanField
        rw [if_pos h]
        simp only [h2]
      · refine ⟨i, by omega, h1, h2, ?_⟩
        show (scanField (f n) (scanFields f n)).act = _
        unfold scanField
        rw [if_pos h]
        simp only [h3]
    · have : scanFields f (n + 1) = scanFields f n := by
        show scanField (f n) (scanFields f n) = _
        unfold scanField
        rw [if_neg h]
      rw [this]
      rcases ih with ⟨h1, h2⟩ | ⟨i, hi, h1, h2, h3⟩
      · refine .inl ⟨fun j hj => ?_, h2⟩
        rcases Nat.lt_succ_iff_lt_or_eq.1 hj with h' | rfl
        · exact h1 j h'
        · exact h
      · exact .inr ⟨i, by omega, h1, h2, h3⟩

theorem scan_flags (f : Nat → OField K) (n : Nat) :
    ((scanFields f n).interp = true ↔ ∃ i < n, (f i).vec = .active ∧ (f i).mode = .interp) ∧
    ((scanFields f n).grad = true ↔ ∃ i < n, (f i).vec = .active ∧ (f i).mode = .grad) := by
  induction n with
  | zero => constructor <;> simp [scanFields]
  | succ n ih =>
    have hs : ∀ P : Nat → Prop, (∃ i < n + 1, P i) ↔ (∃ i < n, P i) ∨ P n := by
      intro P
      constructor
      · rintro ⟨i, hi, h⟩
        rcases Nat.lt_succ_iff_lt_or_eq.1 hi with h' | rfl
        · exact .inl ⟨i, h', h⟩
        · exact .inr h
      · rintro (⟨i, hi, h⟩ | h)
        · exact ⟨i, by omega, h⟩
        · exact ⟨n, by omega, h⟩
    rw [hs, hs, ← ih.1, ← ih.2]
    show ((scanField (f n) (scanFields f n)).interp = true ↔ _) ∧ ((scanField (f n) (scanFields f n)).grad = true ↔ _)
    unfold scanField
    by_cases h : (f n).vec = .active
    · rw [if_pos h]; simp [h]
    · rw [if_neg h]; simp [h]

theorem ind_true {p : Prop} {c : Bool} (h : c = true ↔ p) : (if c then 1 else 0 : K) = ind p := by
  unfold ind
  by_cases hp : p
  · rw [if_pos hp, if_pos (h.2 hp)]
  · rw [if_neg hp, if_neg (fun hh => hp (h.1 hh))]

theorem maxNorm_inv [IsStrictOrderedRing K] {v : Buf K} {m : K} (h : maxNorm v = .ok m) : IsMax v m := by
  unfold maxNorm at h
  refine loop_pres (fun k m => 0 ≤ m ∧ (∀ i < k, |v.val i| ≤ m) ∧ (m = 0 ∨ ∃ i < k, m = |v.val i|))
    ⟨le_refl _, fun i hi => absurd hi (by omega), .inl rfl⟩ (fun k hk m m' hm e => ?_) h
  obtain ⟨x, ex, e⟩ := Res.bind_eq_ok.1 e
  obtain ⟨_, rfl⟩ := rd_inv ex
  obtain ⟨h0, h1, h2⟩ := hm
  split at e
  · rename_i hlt
    cases e
    refine ⟨h0, fun i hi => ?_, ?_⟩
    · rcases Nat.lt_succ_iff_lt_or_eq.1 hi with h | rfl
      · exact h1 i h
      · exact hlt.le
    · rcases h2 with h2 | ⟨i, hi, h2⟩
      · exact .inl h2
      · exact .inr ⟨i, by omega, h2⟩
  · rename_i hlt
    cases e
    refine ⟨abs_nonneg _, fun i hi => ?_, .inr ⟨k, by omega, rfl⟩⟩
    rcases Nat.lt_succ_iff_lt_or_eq.1 hi with h | rfl
    · exact (h1 i h).trans (not_lt.1 hlt)
    · exact le_refl _

theorem average_congr {x : Nat → Nat → K} {w w' : Nat → K} {bound : K} {Q ni : Nat} (h : ∀ q < Q, w q = w' q) :
    average x w bound Q ni = average x w' bound Q ni := by
  unfold average
  congr 2
  refine sum_congr rfl fun q hq => sum_congr rfl fun i _ => ?_
  rw [h q (mem_range.1 hq)]

/-- A product with a matrix of zeros. -/
theorem matmul_zero {B C C' : Buf K} {A : Buf K} {m n kk : Nat} (hA : ∀ x, A.val x = 0) (hC : ∀ x, C.val x = 0)
    (e : Basis.matmul A B C m n kk = .ok C') : C'.len = C.len ∧ ∀ x, C'.val x = 0 := by
  unfold Basis.matmul at e
  refine loop_pres (fun _ (c : Buf K) => c.len = C.len ∧ ∀ x, c.val x = 0) ⟨rfl, hC⟩ (fun i hi c c' hc e => ?_) e
  refine loop_pres (fun _ (c : Buf K) => c.len = C.len ∧ ∀ x, c.val x = 0) hc (fun j hj c c' hc e => ?_) e
  obtain ⟨s, es, e⟩ := Res.bind_eq_ok.1 e
  have h0 : s = 0 := by
    have := floop_sum (t := fun _ => (0 : K)) (fun k hk s s' hs => ?_) es
    · rw [this]; simp
    · obtain ⟨x, ex, hs⟩ := Res.bind_eq_ok.1 hs
      obtain ⟨y, ey, hs⟩ := Res.bind_eq_ok.1 hs
      rw [(rd_inv ex).2, hA] at hs
      cases hs
      ring
  obtain ⟨_, rfl⟩ := wr_inv e
  refine ⟨hc.1, fun x => ?_⟩
  dsimp only
  split
  · exact h0
  · exact hc.2 x

/-- The basis of the new operator. -/
theorem fdmBasis_ok {near : K → Bool} (hnear : ∀ x, near x = true → x = 0) {sqrt : K → K} {v0 v1 : Nat → K} {dim nc P : Nat} {t : Buf K} {fb : Bas K}
    (e : Basis.createTensorH1 near (Basis.collocatedGrad sqrt v0 v1) dim nc P P t ⟨P * P, fun _ => 0⟩ ⟨P, fun _ => 0⟩ = .ok fb) :
    TensorBasis fb t ⟨P * P, fun _ => 0⟩ ⟨P, fun _ => 0⟩ := by
  refine ⟨near, Basis.collocatedGrad sqrt v0 v1, dim, nc, P, P, e, ?_, ?_⟩
  all_goals
    unfold Basis.createTensorH1 at e
    simp only [Res.bind_eq_ok, Res.check_eq_ok] at e
    obtain ⟨_, h1, _, h2, _, h3, _, h4, w', hw, i1', hi, g1', hg, ci, hci, cg, hcg, e⟩ := e
    obtain ⟨_, rfl⟩ := Restriction.copyIn_ok hw
    obtain ⟨_, rfl⟩ := Restriction.copyIn_ok hi
    obtain ⟨_, rfl⟩ := Restriction.copyIn_ok hg
    injection e with e
    subst e
  · intro hc i hi' j hj'
    dsimp only at hc hi' hj' ⊢
    obtain ⟨r, er, hr⟩ := Basis.colloTest_ok (near := near) (P1 := (P : Int).toNat) (Q1 := (P : Int).toNat)
      (m := (⟨(P : Int).toNat * (P : Int).toNat, t.val⟩ : Buf K)) (.inl (le_refl _))
    rw [er] at hci
    cases hci
    have h := hnear _ ((hr hc).2 i hi' j hj')
    dsimp only at h
    rw [show i * (P : Int).toNat + j = j + (P : Int).toNat * i by ring]
    by_cases hij : i = j
    · rw [if_pos hij.symm] at h
      rw [if_pos hij]
      exact sub_eq_zero.1 h
    · rw [if_neg (Ne.symm hij)] at h
      rw [if_neg hij]
      exact h
  · intro c hc
    dsimp only at hc ⊢
    subst hc
    unfold Basis.colloOpt at hcg
    split at hcg
    · obtain ⟨m, em, hm⟩ := Res.bind_eq_ok.1 hcg
      cases hm
      unfold Basis.collocatedGrad at em
      obtain ⟨p, ep, em⟩ := Res.bind_eq_ok.1 em
      obtain ⟨l1, l2⟩ := matmul_zero (fun _ => rfl) (fun _ => rfl) em
      refine ⟨l1, fun q _ p _ => ?_⟩
      rw [sum_eq_zero]
      intro m _
      rw [l2, zero_mul]
    · cases hcg

/-- The steps of a successful call. -/
theorem createFdm_inv {env : FEnv K} {op : Oper K} {ρ μ : Nat} {s s' : ASt K} {fd : Fdm K} {b : Bas K} {rid : Option Nat}
    (hact : (scanFields op.inp op.nin).act = some (some b, rid)) (e : createFdm env op ρ μ s = .ok s' fd) :
    b.isTensor = true ∧ ∃ p v, fdmEig env b = .ok p ∧ buildOrUpdate op env.junk s = .ok s' v ∧
      fdmParts env b (scanFields op.inp op.nin).interp (scanFields op.inp op.nin).grad p.1 p.2 v (s'.szIn * s'.szOut)
        (numElemOf op.rstrs rid) = .ok (fd.basis, fd.rstr, fd.qdata) ∧
      fdmOper (Function.update op.rstrs ρ fd.rstr) b.nc rid ρ μ fd.basis = .ok fd.op := by
  unfold createFdm at e
  rw [hact] at e
  simp only at e
  unfold fdmWith at e
  rw [M.bind_apply] at e
  by_cases ht : b.isTensor = true
  · refine ⟨ht, ?_⟩
    have hl : ∀ {β : Type} (r : Res β) (s : ASt K), (∃ x, r = .ok x ∧ M.lift r s = .ok s x) ∨ (∀ x, r ≠ .ok x) ∧ ∀ s' x, M.lift r s ≠ .ok s' x := by
      intro β r s
      cases r with
      | ok x => exact .inl ⟨x, rfl, rfl⟩
      | err _ => right; constructor <;> (intros; simp [M.lift])
      | ub => right; constructor <;> (intros; simp [M.lift])
    rw [show M.check (b.isTensor = true) .minor s = .ok s () by simp [M.check, ht], Out.bind_ok, M.bind_apply] at e
    rcases hl (fdmEig env b) s with ⟨p, ep, el⟩ | ⟨_, hn⟩
    · rw [el, Out.bind_ok, M.bind_apply] at e
      cases eb : buildOrUpdate op env.junk s with
      | ok s1 v =>
        rw [eb, Out.bind_ok, M.bind_apply, show getA s1 = Out.ok s1 s1 from rfl, Out.bind_ok, M.bind_apply] at e
        rcases hl (fdmParts env b (scanFields op.inp op.nin).interp (scanFields op.inp op.nin).grad p.1 p.2 v (s1.szIn * s1.szOut)
          (numElemOf op.rstrs rid)) s1 with ⟨x, ex, el⟩ | ⟨_, hn⟩
        · rw [el, Out.bind_ok, M.bind_apply] at e
          rcases hl (fdmOper (Function.update op.rstrs ρ x.2.1) b.nc rid ρ μ x.1) s1 with ⟨o, eo, el⟩ | ⟨_, hn⟩
          · rw [el, Out.bind_ok] at e
            cases e
            exact ⟨p, v, ep, rfl, ex, eo⟩
          · cases eh : M.lift (fdmOper (Function.update op.rstrs ρ x.2.1) b.nc rid ρ μ x.1) s1 with
            | ok s2 y => exact absurd eh (hn _ _)
            | err _ _ => rw [eh] at e; cases e
            | ub => rw [eh] at e; cases e
        · cases eh : M.lift (fdmParts env b (scanFields op.inp op.nin).interp (scanFields op.inp op.nin).grad p.1 p.2 v
            (s1.szIn * s1.szOut) (numElemOf op.rstrs rid)) s1 with
          | ok s2 y => exact absurd eh (hn _ _)
          | err _ _ => rw [eh] at e; cases e
          | ub => rw [eh] at e; cases e
      | err _ _ => rw [eb] at e; cases e
      | ub => rw [eb] at e; cases e
    · cases eh : M.lift (fdmEig env b) s with
      | ok s2 y => exact absurd eh (hn _ _)
      | err _ _ => rw [eh] at e; cases e
      | ub => rw [eh] at e; cases e
  · rw [show M.check (b.isTensor = true) .minor s = .err s .minor by simp [M.check, ht]] at e
    cases e

theorem FdmOK.act {env : FEnv K} {op : Oper K} {r : Nat} {l : Int} {D : RData K} {b : Bas K} {i1 g1 w : Buf K} {ρ : Nat}
    (h : FdmOK env op r l D b i1 g1 w ρ) : (scanFields op.inp op.nin).act = some (some b, some r) := by
  obtain ⟨i, hi, h1, h2, h3, h4⟩ := h.first
  rcases scan_act op.inp op.nin with ⟨h5, _⟩ | ⟨j, hj, g1, g2, g3⟩
  · exact absurd h1 (h5 i hi)
  · have : i = j := by
      rcases Nat.lt_trichotomy i j with h | h | h
      · exact absurd h1 (g2 i h)
      · exact h
      · exact absurd g1 (h2 j h)
    subst this
    rw [g3, h3, h4]

/-! ## Properties -/

/-- **C67.** What a successful call creates: the eigenvectors and eigenvalues of the 1D problem, the average of each element
of the assembled QFunction, and scales that are the reciprocals of the average times the sum of eigenvalues (not less than the
bound in magnitude). The average is over `(nc k)²` entries at each point, where `k` is the number of values that the modes of
the active inputs have for each component. -/
theorem C67_created [IsStrictOrderedRing K] {env : FEnv K} {op : Oper K} {r : Nat} {l : Int} {D : RData K} {b : Bas K} {i1 g1 w : Buf K} {ρ μ : Nat}
    (h : FdmOK env op r l D b i1 g1 w ρ) {s s' : ASt K} {fd : Fdm K} (e : createFdm env op ρ μ s = .ok s' fd) :
    ∃ X lam v a, ∃ k : Nat, buildOrUpdate op env.junk s = .ok s' v ∧ (k : K) = ind (UsesMode op .interp) + ind (UsesMode op .grad) * (b.dim : K) ∧
      FdmAvg env D b w v (s'.szIn * s'.szOut) (D.nc * k * (D.nc * k)) a ∧
      IsFdm env op r D b i1 g1 w ρ μ fd X lam a := by
  obtain ⟨ht, ⟨t, lam⟩, v, e1, e2, e3, e4⟩ := createFdm_inv h.act e
  obtain ⟨hT, hi, hg, hw⟩ := Basis.tensorOK_of h.tensor
  unfold fdmEig at e1
  obtain ⟨⟨Mb, Lb⟩, em, e1⟩ := Res.bind_eq_ok.1 e1
  obtain ⟨⟨X, lam'⟩, ex, e1⟩ := Res.bind_eq_ok.1 e1
  obtain ⟨t', et, e1⟩ := Res.bind_eq_ok.1 e1
  cases e1
  obtain ⟨l1, l2, m1, m2⟩ := massLaplace_inv em
  obtain ⟨t1, t2⟩ := fdmInterp_inv et
  have hI : ∀ q p, b.interp1.val (q * b.P1 + p) = i1.val (q * b.P1 + p) := hi
  have hG : ∀ q p, b.grad1.val (q * b.P1 + p) = g1.val (q * b.P1 + p) := hg
  have q1 : ∀ i j, quad1 b.interp1 b.qWeight b.P1 b.Q1 i j = quad1 i1 w b.P1 b.Q1 i j := fun i j => by
    unfold quad1; simp only [hI, hw]
  have q2 : ∀ i j, quadLap b.grad1 b.qWeight b.P1 b.Q1 b.dim i j = quadLap g1 w b.P1 b.Q1 b.dim i j := fun i j => by
    unfold quadLap quad1; simp only [hG, hw]
  simp only [q1] at m1
  simp only [q2] at m2
  have hne : numElemOf op.rstrs (some r) = D.ne := by
    show (op.rstrs r).numElem.toNat = _
    rw [h.made.rep.1.ne]; simp
  unfold fdmParts at e3
  rw [hne] at e3
  obtain ⟨mx, emx, e3⟩ := Res.bind_eq_ok.1 e3
  obtain ⟨wq, ewq, e3⟩ := Res.bind_eq_ok.1 e3
  obtain ⟨avg, eavg, e3⟩ := Res.bind_eq_ok.1 e3
  obtain ⟨dg, edg, e3⟩ := Res.bind_eq_ok.1 e3
  obtain ⟨qd, eqd, e3⟩ := Res.bind_eq_ok.1 e3
  obtain ⟨fb, efb, e3⟩ := Res.bind_eq_ok.1 e3
  obtain ⟨rr, err, e3⟩ := Res.bind_eq_ok.1 e3
  injection e3 with e3
  injection e3 with f1 f2
  injection f2 with f2 f3
  subst f1 f2 f3
  obtain ⟨v', w1, _, w3, _⟩ := Basis.C24_weight_tensor h.tensor env.junk (ne := 1) (by omega) (u := Option.none)
    (v := ⟨b.Q, fun _ => 0⟩) (by simp)
  rw [ewq] at w1
  cases w1
  obtain ⟨a1, a2⟩ := elemAvgs_inv eavg
  obtain ⟨_, d2⟩ := fdmDiagonal_inv edg
  obtain ⟨s1, s2⟩ := fdmScale_inv eqd
  have fi := scan_flags op.inp op.nin
  rw [h.nodes, h.comps] at s1 s2 d2
  refine ⟨X, lam, v, avg.val, (if (scanFields op.inp op.nin).interp then 1 else 0) +
    (if (scanFields op.inp op.nin).grad then b.dim else 0), e2, ?_, ⟨mx, maxNorm_inv emx, fun x hx => ?_⟩, ?_⟩
  · rw [← ind_true (p := UsesMode op .interp) fi.1, ← ind_true (p := UsesMode op .grad) fi.2]
    push_cast
    simp only [ite_mul, one_mul, zero_mul]
  · rw [(elemAvg_inv (a2 x hx)).1]
    rw [← h.comps, show ∀ k, b.nc * k * (b.nc * k) = b.nc * b.nc * k * k from fun k => by ring]
    unfold fdmEntries
    refine average_congr fun q hq => ?_
    have := w3 q hq 0 (by omega)
    rw [Nat.mul_one, Nat.add_zero] at this
    exact this
  · refine ⟨⟨Lb, Mb, l2, l1, m1, m2, ex⟩, fun x hx k hk n hn => ?_, s1, ⟨t, _, _, fdmBasis_ok h.near efb, t2⟩, ?_, ?_, ?_⟩
    · have := s2 x hx k hk n hn
      rw [d2 k hk n hn] at this
      rw [← ind_true (p := UsesMode op .interp) fi.1, ← ind_true (p := UsesMode op .grad) fi.2]
      exact this
    · exact Basis.create_dims efb
    · rw [h.nodes, h.comps] at err; exact err
    · rw [h.comps] at e4; exact e4

end Operator
end Verif
