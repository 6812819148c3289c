import Verif.Composite.Diag
import Verif.Operator.FullProps

/-!
# Assembly of the matrix of composite operators

Models the composite branches of `CeedOperatorLinearAssembleSymbolic` and `CeedOperatorLinearAssemble`
(`interface/ceed-preconditioning.c` 2354-2475), on operators that are ready. The code keeps `offset` in a `CeedInt`; integers
do not overflow here.
-/

set_option linter.unusedSectionVars false

namespace Verif
namespace Composite

open Finset
open Operator

variable {α : Type} [CommRing α]

/-- Lines 821-850 `CeedSingleOperatorAssemblyCountEntries` with the test of line 827. -/
def countT (ops : Nat → Oper α) : Tree → Res Nat
  | .op k => countEntries (ops k)
  | .comp _ => .err .unsupported

/-- Lines 2387-2390: the number of entries. -/
def countL (ops : Nat → Oper α) : List Tree → Nat → Res Nat
  | [], n => .ok n
  | t :: l, n => do
    let m ← countT ops t
    countL ops l (n + m)

/-- Lines 456-552 `CeedSingleOperatorAssembleSymbolic` with the test of line 469. -/
def symT (ops : Nat → Oper α) (P : Nat → Prec α) (off : Nat) (rc : Buf (Int × Int)) : Tree → Res (Buf (Int × Int))
  | .op k => symbolicSingle (ops k) (P k) off rc
  | .comp _ => .err .unsupported

/-- Lines 2402-2406. -/
def symL (ops : Nat → Oper α) (P : Nat → Prec α) : List Tree → Nat → Buf (Int × Int) → Res (Buf (Int × Int))
  | [], _, rc => .ok rc
  | t :: l, off, rc => do
    let rc ← symT ops P off rc t
    let m ← countT ops t
    symL ops P l (off + m) rc

/-- `interface/ceed-preconditioning.c` 2354-2410 `CeedOperatorLinearAssembleSymbolic`. -/
def symbolicC (ops : Nat → Oper α) (P : Nat → Prec α) : Tree → Res (Nat × Buf (Int × Int))
  | .op k => symbolic (ops k) (P k)
  | .comp l => do
    let n ← countL ops l 0
    let rc ← symL ops P l 0 ⟨n, fun _ => (0, 0)⟩
    .ok (n, rc)

/-- Lines 569-807 `CeedSingleOperatorAssemble` with the test of line 573. -/
def asmT (ops : Nat → Oper α) (P : Nat → Prec α) (tensor : Nat → Bool) (junk : Nat → Nat → Nat → α) (off out : Nat) :
    Tree → M (CASt α) Unit
  | .op k => onA k (assembleSingle (ops k) (P k) (tensor k) (junk k) off out)
  | .comp _ => M.fail .unsupported

/-- Lines 2466-2470. -/
def asmL (ops : Nat → Oper α) (P : Nat → Prec α) (tensor : Nat → Bool) (junk : Nat → Nat → Nat → α) (out : Nat) :
    List Tree → Nat → M (CASt α) Unit
  | [], _ => pure ()
  | t :: l, off => do
    asmT ops P tensor junk off out t
    let m ← M.lift (countT ops t)
    asmL ops P tensor junk out l (off + m)

/-- `interface/ceed-preconditioning.c` 2429-2475 `CeedOperatorLinearAssemble`. -/
def assembleC (ops : Nat → Oper α) (P : Nat → Prec α) (tensor : Nat → Bool) (junk : Nat → Nat → Nat → α) (out : Nat) :
    Tree → M (CASt α) Unit
  | .op k => onA k (assemble (ops k) (P k) (tensor k) (junk k) out)
  | .comp l => do
    zeroA out
    asmL ops P tensor junk out l 0

/-! ## Specification -/

/-- As `ReadyC`, for the assembly of the matrix: the active inputs have `n` entries and the active outputs `m`. -/
structure ReadyF (ops : Nat → Oper α) (P : Nat → Prec α) (S : Nat → Meaning α) (ks : List Nat) (n m : Nat)
    (start : Nat → ASt α) (c : CASt α) : Prop where
  ok : ∀ k ∈ ks, OpOK (ops k) (S k) ∧ FullOK (ops k) (P k) (S k) ∧ LinearQF (ops k)
  size : ∀ k ∈ ks, (P k).inSize = n ∧ (P k).outSize = m
  start : ∀ k ∈ ks, Unassembled (ops k) (start k) ∧ NoApply (ops k) (start k) (c.view k)
  fresh : ∀ k ∈ ks, (c.own k).built = none ∨ (c.own k).reuse = false ∨ (c.own k).needs = true
  nodup : ks.Nodup

/-! ## Lists -/

theorem countL_add (ops : Nat → Oper α) : ∀ (l : List Tree) {n N : Nat}, countL ops l n = .ok N →
    ∃ M, countL ops l 0 = .ok M ∧ N = n + M
  | [], n, N, h => by cases h; exact ⟨0, rfl, rfl⟩
  | t :: l, n, N, h => by
    obtain ⟨m, h1, h2⟩ := Res.bind_eq_ok.1 h
    obtain ⟨M1, e1, e2⟩ := countL_add ops l h2
    have : ∃ M2, countL ops l (0 + m) = .ok M2 ∧ M2 = m + M1 := by
      clear h h2 h1
      have key : ∀ (l : List Tree) (a b x : Nat), countL ops l a = .ok x → countL ops l (b + a) = .ok (b + x) := by
        intro l
        induction l with
        | nil => intro a b x h; cases h; rfl
        | cons t l ih =>
          intro a b x h
          obtain ⟨m, h1, h2⟩ := Res.bind_eq_ok.1 h
          show (countT ops t >>= fun m => countL ops l (b + a + m)) = _
          rw [h1, Res.bind_ok, Nat.add_assoc]
          exact ih _ _ _ h2
      refine ⟨m + M1, ?_, rfl⟩
      have := key l 0 m M1 e1
      rw [Nat.zero_add]; exact this
    obtain ⟨M2, f1, f2⟩ := this
    refine ⟨M2, ?_, by omega⟩
    show (countT ops t >>= fun m => countL ops l (0 + m)) = _
    rw [h1, Res.bind_ok, f1]

/-- Only single operators are admitted. -/
theorem countL_single (ops : Nat → Oper α) : ∀ (l : List Tree) {n N : Nat}, countL ops l n = .ok N →
    ∃ ks : List Nat, l = ks.map .op
  | [], _, _, _ => ⟨[], rfl⟩
  | t :: l, n, N, h => by
    obtain ⟨m, h1, h2⟩ := Res.bind_eq_ok.1 h
    obtain ⟨ks, rfl⟩ := countL_single ops l h2
    cases t with
    | op k => exact ⟨k :: ks, rfl⟩
    | comp l' => cases h1

theorem leavesL_map (ks : List Nat) : leavesL (ks.map .op) = ks := by
  induction ks with
  | nil => simp [leavesL]
  | cons k l ih => simp [leavesL, leaves, ih]

theorem asmL_cons {ops : Nat → Oper α} {P : Nat → Prec α} {tensor : Nat → Bool} {junk : Nat → Nat → Nat → α} {out k off m : Nat}
    {l : List Tree} {c c' : CASt α} (hm : countEntries (ops k) = .ok m)
    (e : asmL ops P tensor junk out (.op k :: l) off c = .ok c' ()) :
    ∃ s, assembleSingle (ops k) (P k) (tensor k) (junk k) off out (c.view k) = .ok s () ∧
      asmL ops P tensor junk out l (off + m) (c.put k s) = .ok c' () := by
  have e2 : (onA k (assembleSingle (ops k) (P k) (tensor k) (junk k) off out) c).bind
      (fun s _ => (M.lift (countEntries (ops k)) s).bind (fun s m => asmL ops P tensor junk out l (off + m) s)) =
      .ok c' () := e
  unfold onA at e2
  cases h : assembleSingle (ops k) (P k) (tensor k) (junk k) off out (c.view k) with
  | ok s a =>
    rw [h] at e2
    simp only [M.lift, hm, Out.bind_ok] at e2
    exact ⟨s, rfl, e2⟩
  | err s x => rw [h] at e2; cases e2
  | ub => rw [h] at e2; cases e2

theorem coo_add (n m : Nat) (rc : Nat → Int × Int) (x : Nat → α) (t c : Nat) :
    coo (n + m) rc x t c = coo n rc x t c + coo m (fun k => rc (n + k)) (fun k => x (n + k)) t c := by
  unfold coo
  rw [sum_range_add]

theorem coo_congr {n : Nat} {rc rc' : Nat → Int × Int} {x x' : Nat → α} (h1 : ∀ k < n, rc k = rc' k) (h2 : ∀ k < n, x k = x' k)
    (t c : Nat) : coo n rc x t c = coo n rc' x' t c := by
  unfold coo
  refine sum_congr rfl (fun k hk => ?_)
  rw [h1 k (mem_range.1 hk), h2 k (mem_range.1 hk)]

/-- The triples of a list of single operators. -/
theorem list_matrix {ops : Nat → Oper α} {P : Nat → Prec α} {S : Nat → Meaning α} {tensor : Nat → Bool}
    {junk : Nat → Nat → Nat → α} {out n m : Nat} {start : Nat → ASt α} {vecs0 : Nat → LVec α} {B : Nat → Nat → Nat → α} :
    ∀ (ks : List Nat) (c c' : CASt α) (off N : Nat) (rc rc' : Buf (Int × Int)), ReadyF ops P S ks n m start c →
      (∀ k ∈ ks, ∀ i < (ops k).nin, ((ops k).inp i).vec ≠ .vec out) → (∀ w, w ≠ out → c.vecs w = vecs0 w) →
      (∀ k ∈ ks, IsMatrix (ops k) (S k) (fun v => (vecs0 v).buf.val) n (B k)) →
      countL ops (ks.map .op) 0 = .ok N → symL ops P (ks.map .op) off rc = .ok rc' → off + N ≤ rc.len →
      off + N ≤ (c.vecs out).buf.len → asmL ops P tensor junk out (ks.map .op) off c = .ok c' () →
      rc'.len = rc.len ∧ (∀ x, (x < off ∨ off + N ≤ x) → rc'.val x = rc.val x) ∧
      (∀ k < N, ∃ t c : Nat, rc'.val (off + k) = ((t : Int), (c : Int)) ∧ t < m ∧ c < n) ∧
      (∀ x, (x < off ∨ off + N ≤ x) → c'.L out x = c.L out x) ∧ (∀ w, w ≠ out → c'.vecs w = c.vecs w) ∧
      (c'.vecs out).buf.len = (c.vecs out).buf.len ∧
      ∀ t s, s < n → coo N (fun k => rc'.val (off + k)) (fun k => c'.L out (off + k)) t s =
        (ks.map (fun k => B k t s)).sum
  | [], c, c', off, N, rc, rc', _, _, _, _, hc, hs, _, _, e => by
    cases hc; cases hs; cases e
    exact ⟨rfl, fun _ _ => rfl, fun k hk => absurd hk (by omega), fun _ _ => rfl, fun _ _ => rfl, rfl,
      fun t s _ => by simp [coo]⟩
  | k :: l, c, c', off, N, rc, rc', h, ho, hw, hB, hc, hs, hl1, hl2, e => by
    obtain ⟨m1, c1, c2⟩ := Res.bind_eq_ok.1 hc
    obtain ⟨N2, c3, rfl⟩ := countL_add ops _ c2
    rw [Nat.zero_add] at hl1 hl2 ⊢
    have c1' : countEntries (ops k) = .ok m1 := c1
    obtain ⟨rc1, s1, s2⟩ := Res.bind_eq_ok.1 hs
    rw [c1, Res.bind_ok] at s2
    obtain ⟨s', e1, e2⟩ := asmL_cons c1' e
    obtain ⟨h1, h2, h3⟩ := h.ok k (by simp)
    obtain ⟨u1, u2⟩ := h.start k (by simp)
    obtain ⟨g1, g2, g3⟩ := u1.good h1
    obtain ⟨b1, b2, _⟩ := u2.sound h1 g1 g2 g3
    obtain ⟨z1, z2⟩ := h.size k (by simp)
    obtain ⟨k1, k2, k3, k4, k5, k6, k7, k8⟩ := single_matrix h1 h2 h3 b1 b2 c1' s1 (by omega)
      (show off + m1 ≤ (c.vecs out).buf.len by omega) e1
    have hk : ∀ j ∈ l, j ≠ k := fun j hj hjk => (List.nodup_cons.1 h.nodup).1 (hjk ▸ hj)
    have hready : ReadyF ops P S l n m start (c.put k s') := by
      refine ⟨fun j hj => h.ok j (by simp [hj]), fun j hj => h.size j (by simp [hj]), fun j hj => ⟨(h.start j (by simp [hj])).1, ?_⟩,
        fun j hj => ?_, (List.nodup_cons.1 h.nodup).2⟩
      · rw [aview_put_ne c (hk j hj)]; exact .user (h.start j (by simp [hj])).2 k6
      · have : (c.put k s').own j = c.own j := Function.update_of_ne (hk j hj) _ _
        rw [this]; exact h.fresh j (by simp [hj])
    have hlen : ((c.put k s').vecs out).buf.len = (c.vecs out).buf.len := (k6 out).1
    obtain ⟨i1, i2, i3, i4, i5, i6, i7⟩ := list_matrix l (c.put k s') c' (off + m1) N2 rc1 rc' hready
      (fun j hj => ho j (by simp [hj])) (fun w hw' => (k5 w hw').trans (hw w hw')) (fun j hj => hB j (by simp [hj])) c3 s2
      (by rw [k1]; omega) (by rw [hlen]; omega) e2
    refine ⟨i1.trans k1, fun x hx => ?_, fun x hx => ?_, fun x hx => ?_, fun w hw' => (i5 w hw').trans (k5 w hw'),
      i6.trans hlen, fun t s hs => ?_⟩
    · rw [i2 x (by omega), k2 x (by omega)]
    · by_cases hx1 : x < m1
      · obtain ⟨t, cc, q1, q2, q3⟩ := k3 x hx1
        rw [z2] at q2
        rw [z1] at q3
        exact ⟨t, cc, by rw [i2 _ (by omega), q1], by omega, by omega⟩
      · obtain ⟨t, cc, q1, q2, q3⟩ := i3 (x - m1) (by omega)
        exact ⟨t, cc, by rw [← q1]; congr 1; omega, q2, q3⟩
    · rw [i4 x (by omega)]
      exact k4 x (by omega)
    · rw [coo_add, List.map_cons, List.sum_cons]
      congr 1
      · rw [coo_congr (rc' := fun x => rc1.val (off + x)) (x' := fun x => s'.st.L out (off + x))
          (fun x hx => i2 _ (by omega)) (fun x hx => i4 _ (by omega))]
        have hm : IsMatrix (ops k) (S k) (c.view k).st.L (P k).inSize.toNat (B k) := by
          rw [z1, Int.toNat_natCast]
          refine (hB k (by simp)).congr (fun i hi w hiw => ?_)
          show (c.vecs w).buf.val = (vecs0 w).buf.val
          rw [hw w (fun hh => ho k (by simp) i hi (by rw [hiw, hh]))]
        exact k8 _ (fun s3 v eb => C43_build_partial h1 u1 u2 (h.fresh k (by simp)) eb) _ hm t s (by rw [z1, Int.toNat_natCast]; exact hs)
      · rw [← i7 t s hs]
        exact coo_congr (fun x _ => by rw [Nat.add_assoc]) (fun x _ => by rw [Nat.add_assoc]) t s

/-! ## The property -/

theorem zeroA_readyF {ops : Nat → Oper α} {P : Nat → Prec α} {S : Nat → Meaning α} {ks : List Nat} {n m : Nat}
    {start : Nat → ASt α} {c : CASt α} (h : ReadyF ops P S ks n m start c) (out : Nat) :
    ∃ c1, zeroA out c = .ok c1 () ∧ ReadyF ops P S ks n m start c1 ∧ (∀ x, c1.L out x = 0) ∧
      (∀ w, w ≠ out → c1.vecs w = c.vecs w) ∧ (c1.vecs out).buf.len = (c.vecs out).buf.len := by
  refine ⟨_, rfl, ⟨h.ok, h.size, fun k hk => ⟨(h.start k hk).1, ?_⟩, h.fresh, h.nodup⟩, ?_, ?_, ?_⟩
  · refine NoApply.user (s' := c.view k) (h.start k hk).2 (fun i => ?_)
    show _ ∧ _
    by_cases hi : i = out
    · subst hi
      simp only [Function.update_self]
      exact ⟨rfl, Or.inr (Nat.lt_add_of_pos_right (by decide))⟩
    · simp only [Function.update_of_ne hi]
      exact ⟨rfl, Or.inl rfl⟩
  · intro x; simp [CASt.L]
  · intro w hw; simp [Function.update_of_ne hw]
  · simp

/-- The triples of a composite operator are the matrix of the sum of its parts: for every row and column, the values of the
triples with these coordinates add up to the entry; all coordinates are entries of the active vectors, exactly as many
triples are written as are reported, the rest of `values` is zero, and no other vector is changed. (Missing: what is missing
in `C45_assemble_partial`, operators that occur twice or reuse the assembled QFunction, and composites of composites, which
are rejected, `C45_nested`.) -/
theorem C45_composite_partial {ops : Nat → Oper α} {P : Nat → Prec α} {S : Nat → Meaning α} {l : List Tree} {n m : Nat}
    {start : Nat → ASt α} {c c' : CASt α} (h : ReadyF ops P S (leaves (.comp l)) n m start c) {tensor : Nat → Bool}
    {junk : Nat → Nat → Nat → α} {out : Nat}
    (ho : ∀ k ∈ leaves (.comp l), ∀ i < (ops k).nin, ((ops k).inp i).vec ≠ .vec out) {N : Nat} {rc : Buf (Int × Int)}
    (hsym : symbolicC ops P (.comp l) = .ok (N, rc)) (hl : N ≤ (c.vecs out).buf.len)
    (e : assembleC ops P tensor junk out (.comp l) c = .ok c' ()) {A : Nat → Nat → α}
    (hA : IsMatrixC ops S (leaves (.comp l)) c.L n A) :
    rc.len = N ∧ (∀ k < N, ∃ t s : Nat, rc.val k = ((t : Int), (s : Int)) ∧ t < m ∧ s < n) ∧
    (∀ t s, s < n → coo N rc.val (c'.L out) t s = A t s) ∧ (∀ x, N ≤ x → c'.L out x = 0) ∧
    ∀ w, w ≠ out → c'.vecs w = c.vecs w := by
  obtain ⟨N', h1, hsym⟩ := Res.bind_eq_ok.1 hsym
  obtain ⟨rc', h2, hsym⟩ := Res.bind_eq_ok.1 hsym
  cases hsym
  obtain ⟨ks, rfl⟩ := countL_single ops l h1
  have hlv : leaves (.comp (ks.map .op)) = ks := by simp only [leaves, leavesL_map]
  rw [hlv] at h ho hA
  obtain ⟨c1, z1, z2, z3, z4, z5⟩ := zeroA_readyF h out
  have e2 : (zeroA out c).bind (fun s _ => asmL ops P tensor junk out (ks.map .op) 0 s) = .ok c' () := e
  rw [z1, Out.bind_ok] at e2
  have hB : ∀ k, ∃ B, k ∈ ks → IsMatrix (ops k) (S k) c.L n B := by
    intro k
    by_cases hk : k ∈ ks
    · obtain ⟨f1, f2, f3⟩ := h.ok k hk
      obtain ⟨B, hB⟩ := C44_matrix f1 f3 c.L f2.inSize
      refine ⟨B, fun _ => ?_⟩
      rw [(h.size k hk).1, Int.toNat_natCast] at hB
      exact hB
    · exact ⟨fun _ _ => 0, fun hh => absurd hh hk⟩
  choose B hB using hB
  obtain ⟨k1, _, k3, k4, k5, _, k7⟩ := list_matrix (vecs0 := c.vecs) ks c1 c' 0 _ _ _ z2 ho z4 (fun k hk => hB k hk) h1 h2
    (by simp) (by rw [Nat.zero_add, z5]; exact hl) e2
  simp only [Nat.zero_add] at k3 k4 k7
  refine ⟨k1, k3, fun t s hs => ?_, fun x hx => by rw [k4 x (Or.inr hx), z3], fun w hw => (k5 w hw).trans (z4 w hw)⟩
  rw [k7 t s hs, hA.entry (fun k hk => hB k hk) t hs]

/-- The number of entries reported for a composite operator is the sum of the numbers for its parts. -/
theorem C45_composite_count {ops : Nat → Oper α} {P : Nat → Prec α} {ks : List Nat} {N : Nat} {rc : Buf (Int × Int)}
    (h : symbolicC ops P (.comp (ks.map .op)) = .ok (N, rc)) {n : Nat → Nat} {r : Nat → Buf (Int × Int)}
    (hk : ∀ k ∈ ks, symbolicC ops P (.op k) = .ok (n k, r k)) : N = (ks.map n).sum := by
  have h1 : countL ops (ks.map .op) 0 = .ok N := by
    obtain ⟨N', h1, h⟩ := Res.bind_eq_ok.1 h
    obtain ⟨rc', h2, h⟩ := Res.bind_eq_ok.1 h
    cases h
    exact h1
  clear h
  induction ks generalizing N with
  | nil => cases h1; rfl
  | cons k l ih =>
    obtain ⟨m, c1, c2⟩ := Res.bind_eq_ok.1 h1
    obtain ⟨M, c3, rfl⟩ := countL_add ops _ c2
    have hk1 := (symbolic_ok (hk k (by simp))).1
    have c1' : countEntries (ops k) = .ok m := c1
    rw [c1'] at hk1
    cases hk1
    rw [ih (fun j hj => hk j (by simp [hj])) c3, List.map_cons, List.sum_cons, Nat.zero_add]

/-- A composite operator with a composite operator as a part is rejected by both calls. -/
theorem C45_nested {ops : Nat → Oper α} {P : Nat → Prec α} {l : List Tree} {l' : List Tree} (hl : .comp l' ∈ l) :
    (∀ r, symbolicC ops P (.comp l) ≠ .ok r) ∧
    ∀ tensor junk out c c', assembleC ops P tensor junk out (.comp l) c ≠ .ok c' () := by
  constructor
  · intro r h
    obtain ⟨N', h1, h⟩ := Res.bind_eq_ok.1 h
    obtain ⟨ks, rfl⟩ := countL_single ops l h1
    obtain ⟨k, _, hk⟩ := List.mem_map.1 hl
    cases hk
  · intro tensor junk out c c' h
    have e2 : (zeroA out c).bind (fun s _ => asmL ops P tensor junk out l 0 s) = .ok c' () := h
    have key : ∀ (l : List Tree) (off : Nat) (c : CASt α), .comp l' ∈ l → asmL ops P tensor junk out l off c ≠ .ok c' () := by
      intro l
      induction l with
      | nil => intro off c hm; simp at hm
      | cons t l ih =>
        intro off c hm e
        have e3 : (asmT ops P tensor junk off out t c).bind (fun s _ =>
          (M.lift (countT ops t) s).bind (fun s m => asmL ops P tensor junk out l (off + m) s)) = .ok c' () := e
        rcases List.mem_cons.1 hm with rfl | hm
        · cases e3
        · cases h1 : asmT ops P tensor junk off out t c with
          | ok s a =>
            rw [h1, Out.bind_ok] at e3
            cases h2 : countT ops t with
            | ok m => simp only [M.lift, h2, Out.bind_ok] at e3; exact ih _ _ hm e3
            | err x => simp only [M.lift, h2] at e3; cases e3
            | ub => simp only [M.lift, h2] at e3; cases e3
          | err s x => rw [h1] at e3; cases e3
          | ub => rw [h1] at e3; cases e3
    exact key l 0 _ hl e2

end Composite
end Verif
