import Verif.Basis.AvxBasis
import Verif.Basis.Props

/-!
# C53: the contractions of the CPU backends agree

The backends `opt` and `avx` take bases from the reference backend and replace the contraction. `contractOpt` and
`contractAvx` are their loops; `applyK`, `applyAddK` are `CeedBasisApply` and `CeedBasisApplyAdd` with a given contraction.
-/

namespace Verif
namespace Basis

open Restriction (TMode)
variable {α : Type} [CommRing α]

/-- C53: with the `opt` backend, applying any basis gives what the reference backend gives, also errors. -/
theorem C53_opt (b : Bas α) (junk : Nat → Nat → α) (ne : Nat) (tm : TMode) (em : EMode) (u : Option (Buf α)) (v : Buf α) :
    applyK contractOpt b junk ne tm em u v = apply b junk ne tm em u v ∧
    applyAddK contractOpt b junk ne tm em u v = applyAdd b junk ne tm em u v := by
  have e : (contractOpt : Contr α) = contract := by
    funext A B C J t tof tm add u uo v vo
    exact C20_opt_eq_ref A B C J t tof tm add u uo v vo
  rw [e]
  exact ⟨rfl, rfl⟩

/-- C53: a contraction with vector registers gives what the reference contraction gives, whatever the registers held before;
for one column and one row of results only if there is room for whole registers. -/
theorem C53_avx_contraction_partial (junk : Nat → Reg α) {A B C J : Nat} {t : Buf α} {tof : Nat} {tm : TMode} {add : Bool}
    {u : Buf α} {uo : Nat} {v : Buf α} {vo : Nat} {w : Buf α} (hA : 0 < A) (hB : 0 < B) (hJ : 0 < J)
    (h : contract A B C J t tof tm add u uo v vo = .ok w) :
    contractAvx junk A B C J t tof tm add u uo v vo = .ok w ↔ (C = 1 → J = 1 → Room A vo v.len) := by
  constructor
  · intro hw hC hJ1
    subst hC hJ1
    exact (avxFits_iff hA).1 (contractAvx_fits hw) rfl rfl
  · intro hr
    exact contractAvx_of hA hB hJ ((avxFits_iff hA).2 hr) h

/-- When the array ends with the results, whole registers fit if the number of results is at most four, or leaves the
remainder 0 or 3 when divided by four. -/
theorem C53_room_exact {A vo : Nat} (hA : 0 < A) : Room A vo (vo + A) ↔ A ≤ 4 ∨ A % 4 = 0 ∨ A % 4 = 3 := by
  unfold Room; omega

/-- Weights do not use the contraction. -/
theorem weightK_eq (K : Contr α) (b : Bas α) (junk : Nat → Nat → α) (aa : Bool) (ne : Nat) (tm : TMode) (u : Option (Buf α))
    (v : Buf α) : applyCoreK K b junk aa ne tm .weight u v = applyCore b junk aa ne tm .weight u v := by
  unfold applyCoreK applyCore evalK
  rfl

/-- C53: with the `avx` backend, applying a tensor basis gives what the reference backend gives, also errors, for any number
of elements but one, and for one element if the basis has neither one node nor one quadrature point along a line. -/
theorem C53_avx_tensor_partial {near : α → Bool} {collo : Nat → Nat → Buf α → Buf α → Res (Buf α)}
    (hcollo : ∀ p q i g m, collo p q i g = .ok m → m.len = q * q) {dim nc P1 Q1 : Int} {i1 g1 w : Buf α} {b : Bas α}
    (h : createTensorH1 near collo dim nc P1 Q1 i1 g1 w = .ok b) (regs : Nat → Reg α) (junk : Nat → Nat → α) (ne : Nat)
    (h1 : ne ≠ 1 ∨ (P1 ≠ 1 ∧ Q1 ≠ 1)) (tm : TMode) (em : EMode) (u : Option (Buf α)) (v : Buf α) :
    applyK (contractAvx regs) b junk ne tm em u v = apply b junk ne tm em u v ∧
    applyAddK (contractAvx regs) b junk ne tm em u v = applyAdd b junk ne tm em u v := by
  by_cases hw : em = .weight
  · subst hw
    unfold applyK applyAddK apply applyAdd
    simp only [weightK_eq, and_self]
  obtain ⟨n1, n2⟩ := C28_tensor_partial hcollo h junk ne tm em u v (fun e => absurd e hw)
  have hsz : b.Sized ∧ (ne ≠ 1 ∨ b.Several) := by
    unfold createTensorH1 at h
    obtain ⟨_, c1, h⟩ := Res.bind_eq_ok.1 h
    obtain ⟨_, c2, h⟩ := Res.bind_eq_ok.1 h
    obtain ⟨_, c3, h⟩ := Res.bind_eq_ok.1 h
    obtain ⟨_, c4, h⟩ := Res.bind_eq_ok.1 h
    rw [Res.check_eq_ok] at c1 c2 c3 c4
    obtain ⟨_, _, h⟩ := Res.bind_eq_ok.1 h
    obtain ⟨_, _, h⟩ := Res.bind_eq_ok.1 h
    obtain ⟨_, _, h⟩ := Res.bind_eq_ok.1 h
    obtain ⟨_, _, h⟩ := Res.bind_eq_ok.1 h
    obtain ⟨_, _, h⟩ := Res.bind_eq_ok.1 h
    cases h
    refine ⟨⟨by dsimp only; omega, fun _ => ⟨by dsimp only; omega, by dsimp only; omega⟩, fun h => by cases h⟩, ?_⟩
    rcases h1 with h1 | h1
    · exact Or.inl h1
    · right
      simp only [Bas.Several, if_true]
      omega
  constructor
  · refine Le.bind (Le.refl _) (fun _ _ => ?_) n1
    exact applyCoreK_le (follows_avx regs) hsz.1 hsz.2
  · refine Le.bind (Le.refl _) (fun _ _ => Le.bind (Le.refl _) fun _ _ => ?_) n2
    exact applyCoreK_le (follows_avx regs) hsz.1 hsz.2

/-- C53: the same for bases that are not tensor products, with the matrix of the evaluation mode present. -/
theorem C53_avx_nontensor_partial {sp : Space} {dim : Nat} {nc P Q : Int} {i d w : Buf α} {b : Bas α}
    (h : createNonTensor sp dim nc P Q i d w = .ok b) (regs : Nat → Reg α) (junk : Nat → Nat → α) (ne : Nat)
    (h1 : ne ≠ 1 ∨ (P ≠ 1 ∧ Q ≠ 1)) (tm : TMode) {em : EMode} (u : Option (Buf α)) (v : Buf α)
    (hem : em = .interp ∨ em = sp.mode ∨ em = .weight ∨ em = .none) :
    applyK (contractAvx regs) b junk ne tm em u v = apply b junk ne tm em u v ∧
    applyAddK (contractAvx regs) b junk ne tm em u v = applyAdd b junk ne tm em u v := by
  obtain ⟨n1, n2⟩ := C28_nontensor_partial (⟨dim, nc, P, Q, h⟩ : NonTensorBasis b sp i d w) junk ne tm hem u v
  have hsz : b.Sized ∧ (ne ≠ 1 ∨ b.Several) := by
    unfold createNonTensor at h
    obtain ⟨_, c1, h⟩ := Res.bind_eq_ok.1 h
    obtain ⟨_, c2, h⟩ := Res.bind_eq_ok.1 h
    obtain ⟨_, c3, h⟩ := Res.bind_eq_ok.1 h
    rw [Res.check_eq_ok] at c1 c2 c3
    obtain ⟨_, _, h⟩ := Res.bind_eq_ok.1 h
    obtain ⟨_, _, h⟩ := Res.bind_eq_ok.1 h
    obtain ⟨_, _, h⟩ := Res.bind_eq_ok.1 h
    cases h
    refine ⟨⟨by dsimp only; omega, fun h => (Bool.false_ne_true h).elim,
      fun _ => ⟨by dsimp only; omega, by dsimp only; omega⟩⟩, ?_⟩
    rcases h1 with h1 | h1
    · exact Or.inl h1
    · right
      simp only [Bas.Several, Bool.false_eq_true, if_false]
      omega
  constructor
  · refine Le.bind (Le.refl _) (fun _ _ => ?_) n1
    exact applyCoreK_le (follows_avx regs) hsz.1 hsz.2
  · refine Le.bind (Le.refl _) (fun _ _ => Le.bind (Le.refl _) fun _ _ => ?_) n2
    exact applyCoreK_le (follows_avx regs) hsz.1 hsz.2

/-- C53 fails: with one element, five components, two nodes and one quadrature point, the reference backend interpolates and
the `avx` backend reads beyond the vector of results. -/
theorem C53_avx_overrun_witness : ∃ b, createTensorH1 (fun a => decide (a = 0)) (fun _ _ _ _ => .ub) 1 5 2 1
      (Buf.ofList [1, 1]) (Buf.ofList [-1, 1]) (Buf.ofList [2] : Buf Int) = .ok b ∧
    (∃ r, apply b (fun _ _ => 0) 1 .noTranspose .interp (some (Buf.ofList [1, 2, 3, 4, 5, 6, 7, 8, 9, 10]))
      (Buf.ofList [0, 0, 0, 0, 0]) = .ok r ∧ r.toList = [3, 7, 11, 15, 19]) ∧
    applyK (contractAvx fun _ _ => 0) b (fun _ _ => 0) 1 .noTranspose .interp
      (some (Buf.ofList [1, 2, 3, 4, 5, 6, 7, 8, 9, 10])) (Buf.ofList [0, 0, 0, 0, 0]) = .ub := by
  refine ⟨_, rfl, ⟨_, rfl, by decide +kernel⟩, rfl⟩

/-! ## The hypotheses are satisfiable -/

/-- Three elements, nine quadrature points: blocked, remaining and single loops all run with other results than zero. -/
example : ∃ r, contract 2 3 11 9 (Buf.ofList (List.range 27 |>.map Int.ofNat)) 0 .noTranspose true
      ⟨66, fun i => (i : Int)⟩ 0 ⟨198, fun _ => 1⟩ 0 = .ok r ∧ r.val 0 = 56 ∧
    contractAvx (fun _ _ => 77) 2 3 11 9 (Buf.ofList (List.range 27 |>.map Int.ofNat)) 0 .noTranspose true
      ⟨66, fun i => (i : Int)⟩ 0 ⟨198, fun _ => 1⟩ 0 = .ok r := by
  obtain ⟨r, hr, _, h, _⟩ := C20_formula 2 3 11 9 (Buf.ofList (List.range 27 |>.map Int.ofNat)) 0 .noTranspose true
      ⟨66, fun i => (i : Int)⟩ 0 ⟨198, fun _ => 1⟩ 0 (by decide) (by decide) (by decide)
  refine ⟨r, hr, ?_, (C53_avx_contraction_partial _ (by decide) (by decide) (by decide) hr).2 (fun h => by cases h)⟩
  exact (h 0 (by decide) 0 (by decide) 0 (by decide)).trans (by decide +kernel)

end Basis
end Verif
