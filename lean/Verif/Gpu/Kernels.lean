import Verif.Gpu.Logic
import Verif.Gpu.Rstr

/-!
# The restriction kernels on every grid and every schedule
-/

namespace Verif.Gpu
open Finset Verif.Restriction

variable {α : Type} [CommRing α]

/-- A right-hand side of a kernel that reads only the input, within bounds, and has value `x`. -/
def Computes (len : Arr → Nat) (u₀ : Nat → α) (m : K α α) (x : α) : Prop :=
  Gives u₀ m x ∧ ∀ (F : Foot) (b t : Nat), (∀ i, F.ro .u i) → Safe F len b t m (fun _ => True)

theorem ePosC_node (ne es node comp : Nat) :
    ePosC ne es (node % es : Nat) comp (node / es : Nat) = ((node + comp * (ne * es) : Nat) : Int) := by
  unfold ePosC
  have h : ((node % es : Nat) : Int) + ((node / es : Nat) : Int) * es = (node : Int) := by
    have := Nat.mod_add_div node es
    rw [Nat.mul_comm] at this
    exact_mod_cast this
  push_cast at h ⊢
  rw [mul_assoc (comp : Int), mul_comm (es : Int) (ne : Int), add_right_comm, h]

theorem ePosC_tInd (ne es node comp : Nat) :
    ePosC ne es ((node : Int).tmod es) comp ((node : Int).tdiv es) = ((node + comp * (ne * es) : Nat) : Int) := by
  rw [← ePosC_node]
  rfl

theorem exec_does {u₀ : Nat → α} {m : K α Unit} {f : Vals α → Vals α} {d : Vals α} (h : Does u₀ m () f d)
    {s : Vals α} (hs : s .u = u₀) : exec (m fun _ => .done) s = f s := ((h s hs).2 _).1

theorem adds_does {u₀ : Nat → α} {m : K α Unit} {f : Vals α → Vals α} {d : Vals α} (h : Does u₀ m () f d)
    {s : Vals α} (hs : s .u = u₀) : adds (m fun _ => .done) s = d := by
  rw [((h s hs).2 _).2]
  funext a i
  exact add_zero _

theorem sum_map_range (n : Nat) (f : Nat → α) : ((List.range n).map f).sum = ∑ i ∈ range n, f i := by
  induction n with
  | zero => rfl
  | succ n ih => rw [List.range_succ, List.map_append, List.sum_append, ih, Finset.sum_range_succ]; simp

theorem foldl_est {β σ : Type} {P : σ → Prop} {g : σ → β → σ} {l : List β} (hest : ∃ x ∈ l, ∀ s, P (g s x))
    (hpres : ∀ x ∈ l, ∀ s, P s → P (g s x)) (s : σ) : P (l.foldl g s) := by
  have keep : ∀ l : List β, (∀ x ∈ l, ∀ s, P s → P (g s x)) → ∀ s, P s → P (l.foldl g s) := by
    intro l
    induction l with
    | nil => exact fun _ _ h => h
    | cons x l ih =>
      exact fun hp s h => ih (fun y hy => hp y (List.mem_cons_of_mem _ hy)) _ (hp x (List.mem_cons_self ..) s h)
  induction l generalizing s with
  | nil => obtain ⟨x, hx, -⟩ := hest; simp at hx
  | cons y l ih =>
    obtain ⟨x, hx, he⟩ := hest
    rcases List.mem_cons.mp hx with rfl | hx
    · exact keep l (fun z hz => hpres z (List.mem_cons_of_mem _ hz)) _ (he s)
    · exact ih ⟨x, hx, he⟩ (fun z hz => hpres z (List.mem_cons_of_mem _ hz)) _

/-- L-vector to E-vector kernels: every entry receives its value, the rest of `v` is left alone. -/
theorem gather_runs {ne es nc : Nat} {term : Nat → Nat → K α α} {val : Nat → Nat → α} {G B : Nat} {u v : Buf α}
    (hG : 0 < G) (hB : 0 < B) (hv : ne * es * nc ≤ v.len)
    (h : ∀ node < ne * es, ∀ comp < nc, Computes (memOf u v).len u.val (term node comp) (val node comp)) :
    Runs G B (launch (gatherKernel ne es nc term G B) (memOf u v)) (fun s =>
      (∀ node < ne * es, ∀ comp < nc, s .v (node + comp * (ne * es)) = val node comp) ∧
        (∀ i, ne * es * nc ≤ i → s .v i = v.val i) ∧ s .u = u.val) := by
  have hpos : ∀ {node comp : Nat}, node < ne * es → comp < nc → node + comp * (ne * es) < ne * es * nc := by
    intro node comp hn hc
    have : (comp + 1) * (ne * es) ≤ nc * (ne * es) := Nat.mul_le_mul_right _ hc
    rw [Nat.add_mul, Nat.one_mul, Nat.mul_comm nc] at this
    omega
  have hmod : ∀ {node : Nat} (comp : Nat), node < ne * es → (node + comp * (ne * es)) % (ne * es) = node := by
    intro node comp hn
    rw [Nat.mul_comm comp, Nat.add_mul_mod_self_left, Nat.mod_eq_of_lt hn]
  have hdiv : ∀ {node : Nat} (comp : Nat), node < ne * es → (node + comp * (ne * es)) / (ne * es) = comp := by
    intro node comp hn
    rw [Nat.mul_comm comp, Nat.add_mul_div_left _ _ (by omega), Nat.div_eq_of_lt hn, Nat.zero_add]
  let F : Foot := ⟨fun b t a i => a = .v ∧ i < ne * es * nc ∧ Handles G B b t (i % (ne * es)), fun a _ => a = .u,
    fun _ _ => False⟩
  have hF : F.Apart G B := by
    refine ⟨fun _ ht _ ht' h h' => handles_inj ht ht' h.2.2 h'.2.2, fun _ _ h hr => ?_, fun _ _ _ h => h, fun _ h => h⟩
    have h1 := h.1
    rw [show _ = Arr.u from hr] at h1
    cases h1
  have hdoes : ∀ b t, b < G → t < B → Does u.val (gatherKernel ne es nc term G B b t) () _ _ := fun b t hb ht =>
    does_forIn (l := strideList (ne * es) (B * G) (ne * es) (b * B + t)) fun node hnode =>
      does_forN fun comp hcomp => gives_does (h node ((mem_stride hb ht).mp hnode).1 comp hcomp).1 does_wrv
  refine runs_apart hF (fun b hb t ht => ?_) fun s hown _ hother => ⟨fun node hn comp hc => ?_, fun i hi => ?_, ?_⟩
  · refine safe_forIn (σ := Unit) (I := fun _ => True) (fun node hnode _ _ => ?_) trivial _ fun _ _ => (trivial : F.Fits _ b t Prog.done)
    obtain ⟨hn, hh⟩ := (mem_stride hb ht).mp hnode
    refine safe_forN (fun comp hcomp _ _ => ?_) trivial
    refine safe_bind ((h node hn comp hcomp).2 F b t fun _ => rfl) fun x _ => ?_
    rw [ePosC_node]
    refine safe_wr ⟨Int.natCast_nonneg _, ?_⟩ ⟨rfl, ?_, ?_⟩
    · have := hpos hn hcomp
      show ((_ : Nat) : Int) < ((v.len : Nat) : Int)
      exact_mod_cast lt_of_lt_of_le this hv
    · exact hpos hn hcomp
    · rw [Int.toNat_natCast, hmod comp hn]
      exact hh
  · obtain ⟨b, hb, t, ht, hh⟩ := handles_exists (B := B) hG hB node
    have ho : F.own b t .v (node + comp * (ne * es)) := ⟨rfl, hpos hn hc, by rw [hmod comp hn]; exact hh⟩
    rw [hown b hb t ht _ _ ho]
    show exec (gatherKernel ne es nc term G B b t fun _ => .done) (memOf u v).val .v _ = _
    rw [exec_does (hdoes b t hb ht) rfl]
    have hwr : ∀ x < ne * es, ∀ (s : Vals α), ∀ c : Nat, s .v (node + comp * (ne * es)) = val node comp →
        upd s .v (ePosC ne es (x % es : Nat) c (x / es : Nat)).toNat (val x c) .v (node + comp * (ne * es)) =
          val node comp := by
      intro x hx s c hs
      rw [ePosC_node, Int.toNat_natCast]
      unfold upd
      split
      · rename_i he
        have h1 := hmod c hx
        have h2 := hdiv c hx
        rw [← he.2, hmod comp hn] at h1
        rw [← he.2, hdiv comp hn] at h2
        rw [h1, h2]
      · exact hs
    refine foldl_est (P := fun s : Vals α => s .v (node + comp * (ne * es)) = val node comp)
      ⟨node, (mem_stride hb ht).mpr ⟨hn, hh⟩, fun s => ?_⟩ (fun x hx s hs => ?_) _
    · refine foldl_est (P := fun s : Vals α => s .v (node + comp * (ne * es)) = val node comp)
        ⟨comp, List.mem_range.mpr hc, fun s => ?_⟩ (fun c _ s hs => hwr node hn s c hs) _
      rw [ePosC_node, Int.toNat_natCast, upd_same]
    · have hx' := ((mem_stride hb ht).mp hx).1
      have : ∀ (l : List Nat) (s : Vals α), s .v (node + comp * (ne * es)) = val node comp →
          (l.foldl (fun s (c : Nat) => upd s .v (ePosC ne es (x % es : Nat) c (x / es : Nat)).toNat (val x c)) s) .v
            (node + comp * (ne * es)) = val node comp := by
        intro l
        induction l with
        | nil => exact fun _ h => h
        | cons c l ih => exact fun s h => ih _ (hwr x hx' s c h)
      exact this _ s hs
  · refine hother .v i (fun h => h) fun b _ t _ ho => ?_
    have := ho.2.1
    omega
  · funext i
    refine hother .u i (fun h => h) fun b _ t _ ho => ?_
    exact absurd ho.1 (by simp)

/-- E-vector to L-vector kernels with atomic additions. -/
theorem atomic_runs {ne es nc : Nat} {cs : Int} {indices : Buf Int} {term : Nat → Nat → K α α}
    {val : Nat → Nat → α} {G B : Nat} {u v : Buf α} (hG : 0 < G) (hB : 0 < B) (hl : ne * es ≤ indices.len)
    (hin : ∀ node < ne * es, ∀ comp < nc, InB (memOf u v).len .v (indices.val node + (comp : Nat) * cs))
    (h : ∀ node < ne * es, ∀ comp < nc, Computes (memOf u v).len u.val (term node comp) (val node comp)) :
    Runs G B (launch (atomicKernel ne es nc cs indices term G B) (memOf u v)) (fun s =>
      (∀ i, s .v i = v.val i + ∑ node ∈ range (ne * es), ∑ comp ∈ range nc,
        if (indices.val node + (comp : Nat) * cs).toNat = i then val node comp else 0) ∧ s .u = u.val) := by
  let F : Foot := ⟨fun _ _ _ _ => False, fun a _ => a = .u, fun a _ => a = .v⟩
  have hF : F.Apart G B := by
    refine ⟨fun _ _ _ _ h _ => h.elim, fun _ _ h => h.elim, fun _ _ h => h.elim, fun {a i} h h' => ?_⟩
    have h1 : a = .u := h
    have h2 : a = .v := h'
    rw [h1] at h2
    cases h2
  have hird : ∀ {node : Nat}, node < ne * es → (0 : Int) ≤ (node : Int) ∧ (node : Int) < indices.len := by
    intro node hn
    exact ⟨Int.natCast_nonneg _, by exact_mod_cast lt_of_lt_of_le hn hl⟩
  have hdoes : ∀ b t, b < G → t < B → Does u.val (atomicKernel ne es nc cs indices term G B b t) () _ _ :=
    fun b t hb ht =>
    does_forIn (l := strideList (ne * es) (B * G) (ne * es) (b * B + t)) fun node hnode =>
      does_forN fun comp hcomp =>
        have hn := ((mem_stride hb ht).mp hnode).1
        gives_does (gives_ird (hird hn).1 (hird hn).2) (gives_does (h node hn comp hcomp).1 does_addv)
  refine runs_apart hF (fun b hb t ht => ?_) fun s _ hacc hother => ⟨fun i => ?_, ?_⟩
  · refine safe_forIn (σ := Unit) (I := fun _ => True) (fun node hnode _ _ => ?_) trivial _ fun _ _ => (trivial : F.Fits _ b t Prog.done)
    obtain ⟨hn, hh⟩ := (mem_stride hb ht).mp hnode
    refine safe_forN (fun comp hcomp _ _ => ?_) trivial
    refine safe_bind (safe_ird (hird hn).1 (hird hn).2) fun ind hind => ?_
    subst hind
    refine safe_bind ((h node hn comp hcomp).2 F b t fun _ => rfl) fun x _ => ?_
    exact safe_add (hin node hn comp hcomp) rfl
  · rw [hacc .v i rfl]
    refine congrArg (v.val i + ·) ?_
    have : ∀ x ∈ range G ×ˢ range B,
        adds ((launch (atomicKernel ne es nc cs indices term G B) (memOf u v)).prog x.1 x.2) (memOf u v).val .v i =
          ((strideList (ne * es) (B * G) (ne * es) (x.1 * B + x.2)).map fun node => ∑ comp ∈ range nc,
            if (indices.val node + (comp : Nat) * cs).toNat = i then val node comp else 0).sum := by
      intro x hx
      rw [Finset.mem_product, Finset.mem_range, Finset.mem_range] at hx
      show adds (atomicKernel ne es nc cs indices term G B x.1 x.2 fun _ => .done) (memOf u v).val .v i = _
      rw [adds_does (hdoes x.1 x.2 hx.1 hx.2) rfl]
      refine congrArg List.sum (List.map_congr_left fun node _ => ?_)
      rw [sum_map_range]
      refine Finset.sum_congr rfl fun comp _ => ?_
      simp only [true_and, Int.toNat_natCast, eq_comm]
    rw [← sum_stride hG hB]
    exact Finset.sum_congr rfl this
  · funext i
    exact hother .u i (by show ¬ (Arr.u = Arr.v); simp) fun _ _ _ _ h => h

end Verif.Gpu
