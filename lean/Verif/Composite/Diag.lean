import Verif.Composite.ApplyProps
import Verif.Operator.DiagProps

/-!
# Assembly of the diagonal of composite operators

Models the composite branches of the functions of `Verif/Operator/Diag.lean`.
-/

set_option linter.unusedSectionVars false

namespace Verif
namespace Composite

open Finset
open Operator

variable {α : Type} [CommRing α]

/-- Backend and assembly data of all single operators and all vectors; `(own k).st.vecs` is not used. -/
structure CASt (α : Type) where
  own : Nat → ASt α
  vecs : Nat → LVec α

/-- What calls of operator `k` see. -/
def CASt.view (c : CASt α) (k : Nat) : ASt α := { c.own k with st := { (c.own k).st with vecs := c.vecs } }

/-- The state after a call of operator `k`. -/
def CASt.put (c : CASt α) (k : Nat) (s : ASt α) : CASt α := ⟨Function.update c.own k s, s.st.vecs⟩

/-- A call of single operator `k`. -/
def onA (k : Nat) (m : M (ASt α) Unit) : M (CASt α) Unit := fun c =>
  match m (c.view k) with
  | .ok s a => .ok (c.put k s) a
  | .err s e => .err (c.put k s) e
  | .ub => .ub

mutual
/-- `interface/ceed-preconditioning.c` 2067-2102 `CeedOperatorLinearAssembleAddDiagonal` and (`pb`) 2293-2328
`CeedOperatorLinearAssembleAddPointBlockDiagonal`, on operators that are ready. The test whether a composite is square is not
modelled: its lengths are those of its sub-operators (C42), which are tested. -/
def addDiagT (ops : Nat → Oper α) (P : Nat → Prec α) (pb checked : Bool) (junk : Nat → Nat → Nat → α) (out : Nat) :
    Tree → M (CASt α) Unit
  | .op k => onA k (addDiagonal (ops k) (P k) pb checked (junk k) out)
  | .comp l => addDiagL ops P pb checked junk out l
/-- Lines 424-445 `CeedCompositeOperatorLinearAssembleAddDiagonal`. -/
def addDiagL (ops : Nat → Oper α) (P : Nat → Prec α) (pb checked : Bool) (junk : Nat → Nat → Nat → α) (out : Nat) :
    List Tree → M (CASt α) Unit
  | [] => pure ()
  | t :: l => do
    addDiagT ops P pb checked junk out t
    addDiagL ops P pb checked junk out l
end

/-- `CeedVectorSetValue(assembled, 0.0)` (`interface/ceed-vector.c` 340-361). -/
def zeroA (i : Nat) : M (CASt α) Unit := fun c =>
  .ok { c with vecs := Function.update c.vecs i (LVec.mk ((c.vecs i).state + 2) true ⟨(c.vecs i).buf.len, fun _ => 0⟩) } ()

/-- `interface/ceed-preconditioning.c` 2008-2047 `CeedOperatorLinearAssembleDiagonal` and (`pb`) 2231-2271
`CeedOperatorLinearAssemblePointBlockDiagonal`, on operators that are ready. -/
def diagT (ops : Nat → Oper α) (P : Nat → Prec α) (pb checked : Bool) (junk : Nat → Nat → Nat → α) (out : Nat) :
    Tree → M (CASt α) Unit
  | .op k => onA k (assembleDiagonal (ops k) (P k) pb checked (junk k) out)
  | .comp l => do
    zeroA out
    addDiagL ops P pb checked junk out l

/-! ## Specification -/

/-- Contents of all vectors. -/
def CASt.L (c : CASt α) : Nat → Nat → α := fun v => (c.vecs v).buf.val

/-- `A` is the matrix of the sum of the operators (compare `IsMatrix` and C38). -/
def IsMatrixC (ops : Nat → Oper α) (S : Nat → Meaning α) (ks : List Nat) (L : Nat → Nat → α) (n : Nat) (A : Nat → Nat → α) :
    Prop :=
  ∀ iv ov, (∀ k ∈ ks, ∀ i < (ops k).nin, ((ops k).inp i).vec ≠ .vec iv) →
    (∀ k ∈ ks, ∀ o < (ops k).nout, ((ops k).out o).vec ≠ .vec ov) →
    ∀ (u : Nat → α) (t : Nat), total ops S (Function.update L iv u) (.vec iv) (.vec ov) ks ov t = ∑ s ∈ range n, A t s * u s

/-- Every operator of the list can be assembled, its vectors have `n` entries, it has a history of applications, followed by
anything but applications, and an assembled QFunction is not reused. -/
structure ReadyC (ops : Nat → Oper α) (P : Nat → Prec α) (S : Nat → Meaning α) (ks : List Nat) (n : Nat) (start : Nat → ASt α)
    (c : CASt α) : Prop where
  ok : ∀ k ∈ ks, OpOK (ops k) (S k) ∧ DiagOK (ops k) (P k) (S k) ∧ LinearQF (ops k)
  size : ∀ k ∈ ks, (P k).inSize.toNat = n
  start : ∀ k ∈ ks, Unassembled (ops k) (start k) ∧ NoApply (ops k) (start k) (c.view k)
  fresh : ∀ k ∈ ks, (c.own k).built = none ∨ (c.own k).reuse = false ∨ (c.own k).needs = true
  nodup : ks.Nodup

/-! ## Lists of single operators -/

/-- The operators of a list, one after the other. -/
def addDiagK (ops : Nat → Oper α) (P : Nat → Prec α) (pb checked : Bool) (junk : Nat → Nat → Nat → α) (out : Nat) :
    List Nat → M (CASt α) Unit
  | [] => pure ()
  | k :: l => do
    onA k (addDiagonal (ops k) (P k) pb checked (junk k) out)
    addDiagK ops P pb checked junk out l

theorem addDiagK_append (ops : Nat → Oper α) (P : Nat → Prec α) (pb checked : Bool) (junk : Nat → Nat → Nat → α) (out : Nat)
    (a b : List Nat) : addDiagK ops P pb checked junk out (a ++ b) =
      (do addDiagK ops P pb checked junk out a; addDiagK ops P pb checked junk out b) := by
  induction a with
  | nil => rfl
  | cons k a ih =>
    show (do onA k _; addDiagK ops P pb checked junk out (a ++ b)) =
      (do (do onA k _; addDiagK ops P pb checked junk out a); _)
    rw [ih, bind_unit_assoc]

mutual
theorem addDiagT_eq (ops : Nat → Oper α) (P : Nat → Prec α) (pb checked : Bool) (junk : Nat → Nat → Nat → α) (out : Nat) :
    ∀ t : Tree, addDiagT ops P pb checked junk out t = addDiagK ops P pb checked junk out (leaves t)
  | .op k => by
    simp only [addDiagT, leaves, addDiagK]
    rw [bind_unit_pure]
  | .comp l => by
    simp only [addDiagT, leaves]
    exact addDiagL_eq ops P pb checked junk out l
theorem addDiagL_eq (ops : Nat → Oper α) (P : Nat → Prec α) (pb checked : Bool) (junk : Nat → Nat → Nat → α) (out : Nat) :
    ∀ l : List Tree, addDiagL ops P pb checked junk out l = addDiagK ops P pb checked junk out (leavesL l)
  | [] => by simp only [addDiagL, leavesL, addDiagK]
  | t :: l => by
    simp only [addDiagL, leavesL]
    rw [addDiagK_append, addDiagT_eq ops P pb checked junk out t, addDiagL_eq ops P pb checked junk out l]
end

theorem aview_put_self (c : CASt α) (k : Nat) (s : ASt α) : (c.put k s).view k = s := by
  unfold CASt.view CASt.put
  simp only [Function.update_self]

theorem aview_put_ne (c : CASt α) {j k : Nat} (h : j ≠ k) (s : ASt α) :
    (c.put k s).view j = { c.view j with st := { (c.view j).st with vecs := s.st.vecs } } := by
  unfold CASt.view CASt.put
  simp only [Function.update_of_ne h]

theorem addDiagK_cons {ops : Nat → Oper α} {P : Nat → Prec α} {pb checked : Bool} {junk : Nat → Nat → Nat → α} {out k : Nat}
    {l : List Nat} {c c' : CASt α} (e : addDiagK ops P pb checked junk out (k :: l) c = .ok c' ()) :
    ∃ s, addDiagonal (ops k) (P k) pb checked (junk k) out (c.view k) = .ok s () ∧
      addDiagK ops P pb checked junk out l (c.put k s) = .ok c' () := by
  have e2 : (onA k (addDiagonal (ops k) (P k) pb checked (junk k) out) c).bind
      (fun s _ => addDiagK ops P pb checked junk out l s) = .ok c' () := e
  unfold onA at e2
  cases h : addDiagonal (ops k) (P k) pb checked (junk k) out (c.view k) with
  | ok s a => rw [h] at e2; exact ⟨s, rfl, e2⟩
  | err s x => rw [h] at e2; cases e2
  | ub => rw [h] at e2; cases e2

/-- What the operators of the list add is what each adds. -/
theorem sum_leaves {ops : Nat → Oper α} {P : Nat → Prec α} {pb checked : Bool} {junk : Nat → Nat → Nat → α} {out : Nat}
    {start : Nat → ASt α} {X : Nat → Prop} {G : Nat → Nat → α} {vecs0 : Nat → LVec α} :
    ∀ (ks : List Nat) (c c' : CASt α), ks.Nodup → (∀ w, w ≠ out → c.vecs w = vecs0 w) →
      (∀ k ∈ ks, NoApply (ops k) (start k) (c.view k)) →
      (∀ k ∈ ks, (c.own k).built = none ∨ (c.own k).reuse = false ∨ (c.own k).needs = true) →
      (∀ k ∈ ks, ∀ s1 s2 : ASt α, NoApply (ops k) (start k) s1 →
        (s1.built = none ∨ s1.reuse = false ∨ s1.needs = true) → (∀ w, w ≠ out → s1.st.vecs w = vecs0 w) →
        addDiagonal (ops k) (P k) pb checked (junk k) out s1 = .ok s2 () →
        (∀ x, X x → s2.st.L out x = s1.st.L out x + G k x) ∧ (∀ w, w ≠ out → s2.st.vecs w = s1.st.vecs w) ∧
        Advances s1.st.vecs s2.st.vecs) →
      addDiagK ops P pb checked junk out ks c = .ok c' () →
      (∀ x, X x → c'.L out x = c.L out x + (ks.map (fun k => G k x)).sum) ∧ ∀ w, w ≠ out → c'.vecs w = c.vecs w
  | [], c, c', _, _, _, _, _, e => by
    cases e
    exact ⟨fun x _ => by simp, fun _ _ => rfl⟩
  | k :: l, c, c', hnd, hw, hn, hf, hstep, e => by
    obtain ⟨s, e1, e2⟩ := addDiagK_cons e
    obtain ⟨h1, h2, h3⟩ := hstep k (by simp) (c.view k) s (hn k (by simp)) (hf k (by simp)) hw e1
    have hk : ∀ j ∈ l, j ≠ k := fun j hj hjk => (List.nodup_cons.1 hnd).1 (hjk ▸ hj)
    obtain ⟨i1, i2⟩ := sum_leaves l (c.put k s) c' (List.nodup_cons.1 hnd).2
      (fun w hw' => (h2 w hw').trans (hw w hw'))
      (fun j hj => by rw [aview_put_ne c (hk j hj)]; exact .user (hn j (by simp [hj])) h3)
      (fun j hj => by
        have : (c.put k s).own j = c.own j := Function.update_of_ne (hk j hj) _ _
        rw [this]; exact hf j (by simp [hj]))
      (fun j hj => hstep j (by simp [hj])) e2
    refine ⟨fun x hx => ?_, fun w hw' => (i2 w hw').trans (h2 w hw')⟩
    have : (c.put k s).L out x = c.L out x + G k x := h1 x hx
    rw [i1 x hx, this, List.map_cons, List.sum_cons, add_assoc]

theorem adding_advances {op : Oper α} {S : Meaning α} (h : OpOK op S) {junk : Nat → Nat → α} {out : Nat}
    {C : Buf α → Nat → α} {s s2 : ASt α} (hg : Good op S s.st) (hd : AData op s) (ha : Adding op junk out C s s2) :
    Advances s.st.vecs s2.st.vecs := by
  rcases ha with ⟨_, rfl⟩ | ⟨_, s3, v, e, hp⟩
  · exact fun _ => ⟨rfl, Or.inl rfl⟩
  · have := hp.adv.1
    rw [(build_data h hg hd e).2.2.2] at this
    exact this

/-! ## Matrices -/

theorem exists_freshC (ops : Nat → Oper α) (f : Oper α → Nat → OField α) (n : Oper α → Nat) (ks : List Nat) :
    ∃ v, ∀ k ∈ ks, ∀ i < n (ops k), (f (ops k) i).vec ≠ .vec v := by
  have one : ∀ m k, ∃ N, ∀ v, N ≤ v → ∀ i < m, (f (ops k) i).vec ≠ .vec v := by
    intro m k
    induction m with
    | zero => exact ⟨0, fun v _ i hi => absurd hi (by omega)⟩
    | succ m ih =>
      obtain ⟨N, hN⟩ := ih
      refine ⟨max N (match (f (ops k) m).vec with | .vec v => v + 1 | _ => 0), fun v hv i hi => ?_⟩
      by_cases him : i = m
      · subst him
        intro hh
        rw [hh] at hv
        have : v + 1 ≤ v := le_trans (le_max_right _ _) hv
        omega
      · exact hN v (le_trans (le_max_left _ _) hv) i (by omega)
  suffices ∃ N, ∀ v, N ≤ v → ∀ k ∈ ks, ∀ i < n (ops k), (f (ops k) i).vec ≠ .vec v by
    obtain ⟨N, hN⟩ := this
    exact ⟨N, hN N (le_refl _)⟩
  induction ks with
  | nil => exact ⟨0, fun v _ k hk => by simp at hk⟩
  | cons k l ih =>
    obtain ⟨N, hN⟩ := ih
    obtain ⟨N', hN'⟩ := one (n (ops k)) k
    refine ⟨max N N', fun v hv j hj => ?_⟩
    rcases List.mem_cons.1 hj with rfl | hj
    · exact hN' v (le_trans (le_max_right _ _) hv)
    · exact hN v (le_trans (le_max_left _ _) hv) j hj

/-- The matrix of a sum is the sum of the matrices. -/
theorem IsMatrixC.entry {ops : Nat → Oper α} {S : Nat → Meaning α} {ks : List Nat} {L : Nat → Nat → α} {n : Nat}
    {A : Nat → Nat → α} (hA : IsMatrixC ops S ks L n A) {B : Nat → Nat → Nat → α}
    (hB : ∀ k ∈ ks, IsMatrix (ops k) (S k) L n (B k)) (t : Nat) {s : Nat} (hs : s < n) :
    A t s = (ks.map (fun k => B k t s)).sum := by
  obtain ⟨iv, hiv⟩ := exists_freshC ops Oper.inp Oper.nin ks
  obtain ⟨ov, hov⟩ := exists_freshC ops Oper.out Oper.nout ks
  have := hA iv ov hiv hov (fun x => if x = s then 1 else 0) t
  have hsum : ∀ C : Nat → Nat → α, (∑ x ∈ range n, C t x * (if x = s then 1 else 0)) = C t s := by
    intro C
    rw [sum_eq_single s]
    · simp
    · intro x _ hx; simp [hx]
    · intro hh; exact absurd (mem_range.2 hs) hh
  rw [hsum A] at this
  rw [← this]
  unfold total
  congr 1
  refine List.map_congr_left (fun k hk => ?_)
  rw [hB k hk iv ov (hiv k hk) (hov k hk), hsum (B k)]

/-- Sums of linear operators have a matrix. -/
theorem C44_composite_matrix {ops : Nat → Oper α} {P : Nat → Prec α} {S : Nat → Meaning α} {ks : List Nat} {n : Nat}
    (h : ∀ k ∈ ks, OpOK (ops k) (S k) ∧ LinearQF (ops k) ∧ SizeOK (ops k) (ops k).inp (ops k).nin (P k).inSize ∧
      (P k).inSize.toNat = n) (L : Nat → Nat → α) : ∃ A, IsMatrixC ops S ks L n A := by
  have : ∀ k, ∃ B, k ∈ ks → IsMatrix (ops k) (S k) L n B := by
    intro k
    by_cases hk : k ∈ ks
    · obtain ⟨h1, h2, h3, h4⟩ := h k hk
      obtain ⟨B, hB⟩ := C44_matrix h1 h2 L h3
      exact ⟨B, fun _ => h4 ▸ hB⟩
    · exact ⟨fun _ _ => 0, fun hh => absurd hh hk⟩
  choose B hB using this
  refine ⟨fun t s => (ks.map (fun k => B k t s)).sum, fun iv ov hiv hov u t => ?_⟩
  unfold total
  have hk : ∀ k ∈ ks, (S k).action (ops k) (Function.update L iv u) (.vec iv) (.vec ov) ov t = ∑ s ∈ range n, B k t s * u s :=
    fun k hk => hB k hk iv ov (hiv k hk) (hov k hk) u t
  rw [List.map_congr_left hk]
  clear hk hB h hiv hov
  induction ks with
  | nil => simp
  | cons k l ih => simp only [List.map_cons, List.sum_cons, ih, add_mul, sum_add_distrib]

/-! ## The properties -/

/-- `CeedOperatorLinearAssembleAddDiagonal` on a composite operator of any depth adds the diagonal of the matrix of the sum of
its parts. (Missing: what is missing in `C44_add_partial`, and operators that occur twice or reuse the assembled
QFunction.) -/
theorem C44_composite_add_partial {ops : Nat → Oper α} {P : Nat → Prec α} {S : Nat → Meaning α} {t : Tree} {n : Nat}
    {start : Nat → ASt α} {c c' : CASt α} (h : ReadyC ops P S (leaves t) n start c) {checked : Bool}
    {junk : Nat → Nat → Nat → α} {out : Nat} (ho : ∀ k ∈ leaves t, ∀ i < (ops k).nin, ((ops k).inp i).vec ≠ .vec out)
    (e : addDiagT ops P false checked junk out t c = .ok c' ()) {A : Nat → Nat → α}
    (hA : IsMatrixC ops S (leaves t) c.L n A) :
    (∀ x < n, c'.L out x = c.L out x + A x x) ∧ ∀ w, w ≠ out → c'.vecs w = c.vecs w := by
  rw [addDiagT_eq] at e
  have hB : ∀ k, ∃ B, k ∈ leaves t → IsMatrix (ops k) (S k) c.L n B := by
    intro k
    by_cases hk : k ∈ leaves t
    · obtain ⟨h1, h2, h3⟩ := h.ok k hk
      obtain ⟨B, hB⟩ := C44_matrix h1 h3 c.L h2.inSize
      exact ⟨B, fun _ => h.size k hk ▸ hB⟩
    · exact ⟨fun _ _ => 0, fun hh => absurd hh hk⟩
  choose B hB using hB
  obtain ⟨a1, a2⟩ := sum_leaves (X := fun x => x < n) (G := fun k x => B k x x) (vecs0 := c.vecs) (leaves t) c c' h.nodup
    (fun _ _ => rfl) (fun k hk => (h.start k hk).2) h.fresh (fun k hk s1 s2 hn hf hw e1 => by
      obtain ⟨h1, h2, h3⟩ := h.ok k hk
      have hm : IsMatrix (ops k) (S k) s1.st.L (P k).inSize.toNat (B k) := by
        rw [h.size k hk]
        refine (hB k hk).congr (fun i hi w hiw => ?_)
        show (s1.st.vecs w).buf.val = (c.vecs w).buf.val
        rw [hw w (fun hh => ho k hk i hi (by rw [hiw, hh]))]
      obtain ⟨⟨b1, _, b3⟩, _⟩ := C44_add_partial h1 h2 h3 (h.start k hk).1 hn hf e1 hm
      obtain ⟨g1, g2, g3⟩ := (h.start k hk).1.good h1
      obtain ⟨d1, d2, _⟩ := hn.sound h1 g1 g2 g3
      exact ⟨fun x hx => b1 x (by rw [h.size k hk]; exact hx), b3,
        adding_advances h1 d1 d2 (addDiagonal_ok h1 h2 d1 d2 e1)⟩) e
  refine ⟨fun x hx => ?_, a2⟩
  rw [a1 x hx, hA.entry (fun k hk => hB k hk) x hx]

theorem zeroA_ready {ops : Nat → Oper α} {P : Nat → Prec α} {S : Nat → Meaning α} {ks : List Nat} {n : Nat}
    {start : Nat → ASt α} {c : CASt α} (h : ReadyC ops P S ks n start c) (out : Nat) :
    ∃ c1, zeroA out c = .ok c1 () ∧ ReadyC ops P S ks n start c1 ∧ (∀ x, c1.L out x = 0) ∧
      ∀ w, w ≠ out → c1.vecs w = c.vecs w := by
  refine ⟨_, rfl, ⟨h.ok, h.size, fun k hk => ⟨(h.start k hk).1, ?_⟩, h.fresh, h.nodup⟩, ?_, ?_⟩
  · refine NoApply.user (s' := c.view k) (h.start k hk).2 (fun i => ?_)
    show _ ∧ _
    by_cases hi : i = out
    · subst hi
      simp only [Function.update_self]
      exact ⟨rfl, Or.inr (Nat.lt_add_of_pos_right (by decide))⟩
    · simp only [Function.update_of_ne hi]
      exact ⟨rfl, Or.inl rfl⟩
  · intro x; simp [CASt.L]
  · intro w hw; simp [Function.update_of_ne hw]

theorem IsMatrixC.congr {ops : Nat → Oper α} {S : Nat → Meaning α} {ks : List Nat} {L L' : Nat → Nat → α} {n : Nat}
    {A : Nat → Nat → α} (hA : IsMatrixC ops S ks L n A)
    (hL : ∀ k ∈ ks, ∀ i < (ops k).nin, ∀ w, ((ops k).inp i).vec = .vec w → L' w = L w) : IsMatrixC ops S ks L' n A := by
  intro iv ov hiv hov u x
  rw [← hA iv ov hiv hov u x]
  unfold total
  congr 1
  exact List.map_congr_left (fun k hk => action_passive (hL k hk) (hiv k hk) ov u x)

theorem diagT_zero {ops : Nat → Oper α} {P : Nat → Prec α} {l : List Tree} {pb checked : Bool} {junk : Nat → Nat → Nat → α}
    {out : Nat} {c c1 c' : CASt α} (z : zeroA out c = .ok c1 ()) (e : diagT ops P pb checked junk out (.comp l) c = .ok c' ()) :
    addDiagT ops P pb checked junk out (.comp l) c1 = .ok c' () := by
  have : (zeroA out c).bind (fun s _ => addDiagL ops P pb checked junk out l s) = .ok c' () := e
  rw [z, Out.bind_ok] at this
  simp only [addDiagT]
  exact this

/-- `CeedOperatorLinearAssembleDiagonal` on a composite operator makes the vector the diagonal of the matrix of the sum of its
parts, also if some or all of them have no elements. -/
theorem C44_composite_diagonal_partial {ops : Nat → Oper α} {P : Nat → Prec α} {S : Nat → Meaning α} {l : List Tree} {n : Nat}
    {start : Nat → ASt α} {c c' : CASt α} (h : ReadyC ops P S (leaves (.comp l)) n start c) {checked : Bool}
    {junk : Nat → Nat → Nat → α} {out : Nat}
    (ho : ∀ k ∈ leaves (.comp l), ∀ i < (ops k).nin, ((ops k).inp i).vec ≠ .vec out)
    (e : diagT ops P false checked junk out (.comp l) c = .ok c' ()) {A : Nat → Nat → α}
    (hA : IsMatrixC ops S (leaves (.comp l)) c.L n A) :
    (∀ x < n, c'.L out x = A x x) ∧ ∀ w, w ≠ out → c'.vecs w = c.vecs w := by
  obtain ⟨c1, z1, z2, z3, z4⟩ := zeroA_ready h out
  have hA1 : IsMatrixC ops S (leaves (.comp l)) c1.L n A := hA.congr (fun k hk i hi w hiw => by
    show (c1.vecs w).buf.val = (c.vecs w).buf.val
    rw [z4 w (fun hh => ho k hk i hi (by rw [hiw, hh]))])
  obtain ⟨a1, a2⟩ := C44_composite_add_partial z2 ho (diagT_zero z1 e) hA1
  exact ⟨fun x hx => by rw [a1 x hx, z3, zero_add], fun w hw => (a2 w hw).trans (z4 w hw)⟩

/-- `CeedOperatorLinearAssembleAddPointBlockDiagonal` on a composite operator whose parts have the same number of components
and the same component stride. -/
theorem C44_composite_block_partial {ops : Nat → Oper α} {P : Nat → Prec α} {S : Nat → Meaning α} {t : Tree} {n : Nat}
    {start : Nat → ASt α} {c c' : CASt α} (h : ReadyC ops P S (leaves t) n start c) {checked : Bool}
    {junk : Nat → Nat → Nat → α} {out : Nat} (ho : ∀ k ∈ leaves t, ∀ i < (ops k).nin, ((ops k).inp i).vec ≠ .vec out)
    {nc : Nat} {cs : Int} {β ρ : Nat → Nat} {node : Nat → Nat → Nat → Nat}
    (hb : ∀ k ∈ leaves t, BlockOK (ops k) (P k) (S k) (β k) (ρ k) (node k) ∧ ((S k).D (ρ k)).nc = nc ∧
      ((ops k).rstrs (ρ k)).compStride = cs)
    (e : addDiagT ops P true checked junk out t c = .ok c' ()) {A : Nat → Nat → α}
    (hA : IsMatrixC ops S (leaves t) c.L n A) :
    (∀ a co ci, co < nc → ci < nc → (cs = 1 ∨ a < cs.toNat) → nodePos cs nc a ci < n →
      c'.L out (a * (nc * nc) + (co * nc + ci)) =
        c.L out (a * (nc * nc) + (co * nc + ci)) + A (nodePos cs nc a co) (nodePos cs nc a ci)) ∧
    ∀ w, w ≠ out → c'.vecs w = c.vecs w := by
  rw [addDiagT_eq] at e
  have hB : ∀ k, ∃ B, k ∈ leaves t → IsMatrix (ops k) (S k) c.L n B := by
    intro k
    by_cases hk : k ∈ leaves t
    · obtain ⟨h1, h2, h3⟩ := h.ok k hk
      obtain ⟨B, hB⟩ := C44_matrix h1 h3 c.L h2.inSize
      exact ⟨B, fun _ => h.size k hk ▸ hB⟩
    · exact ⟨fun _ _ => 0, fun hh => absurd hh hk⟩
  choose B hB using hB
  have key : ∀ a co ci, co < nc → ci < nc → (cs = 1 ∨ a < cs.toNat) → nodePos cs nc a ci < n →
      (∀ x, x = a * (nc * nc) + (co * nc + ci) → c'.L out x = c.L out x + ((leaves t).map
        (fun k => B k (nodePos cs nc a co) (nodePos cs nc a ci))).sum) ∧ ∀ w, w ≠ out → c'.vecs w = c.vecs w := by
    intro a co ci hco hci hcs hlt
    refine sum_leaves (X := fun x => x = a * (nc * nc) + (co * nc + ci))
      (G := fun k _ => B k (nodePos cs nc a co) (nodePos cs nc a ci)) (vecs0 := c.vecs) (leaves t) c c' h.nodup
      (fun _ _ => rfl) (fun k hk => (h.start k hk).2) h.fresh (fun k hk s1 s2 hn hf hw e1 => ?_) e
    obtain ⟨h1, h2, h3⟩ := h.ok k hk
    obtain ⟨hbk, rfl, rfl⟩ := hb k hk
    have hm : IsMatrix (ops k) (S k) s1.st.L (P k).inSize.toNat (B k) := by
      rw [h.size k hk]
      refine (hB k hk).congr (fun i hi w hiw => ?_)
      show (s1.st.vecs w).buf.val = (c.vecs w).buf.val
      rw [hw w (fun hh => ho k hk i hi (by rw [hiw, hh]))]
    obtain ⟨⟨b1, _, b3⟩, _⟩ := C44_block_partial h1 h2 h3 hbk (h.start k hk).1 hn hf e1 hm
    obtain ⟨g1, g2, g3⟩ := (h.start k hk).1.good h1
    obtain ⟨d1, d2, _⟩ := hn.sound h1 g1 g2 g3
    refine ⟨fun x hx => ?_, b3, adding_advances h1 d1 d2 (addBlock_ok h1 h2 hbk d1 d2 e1)⟩
    subst hx
    exact b1 a co ci hco hci hcs (by rw [h.size k hk]; exact hlt)
  refine ⟨fun a co ci hco hci hcs hlt => ?_, ?_⟩
  · rw [(key a co ci hco hci hcs hlt).1 _ rfl, hA.entry (fun k hk => hB k hk) _ hlt]
  · exact (sum_leaves (X := fun _ => False) (G := fun _ _ => 0) (vecs0 := c.vecs) (leaves t) c c' h.nodup
      (fun _ _ => rfl) (fun k hk => (h.start k hk).2) h.fresh (fun k hk s1 s2 hn hf hw e1 => by
        obtain ⟨h1, h2, h3⟩ := h.ok k hk
        obtain ⟨hbk, rfl, rfl⟩ := hb k hk
        obtain ⟨g1, g2, g3⟩ := (h.start k hk).1.good h1
        obtain ⟨d1, d2, _⟩ := hn.sound h1 g1 g2 g3
        have ha := addBlock_ok h1 h2 hbk d1 d2 e1
        exact ⟨fun _ hx => hx.elim, fun w hw => ha.others h1 d1 d2 hw, adding_advances h1 d1 d2 ha⟩) e).2

end Composite
end Verif
