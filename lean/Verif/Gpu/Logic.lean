import Verif.Gpu.Sched

/-!
# Reasoning about pieces of kernels
-/

namespace Verif.Gpu
open Finset

variable {α : Type} {β γ σ : Type}

theorem K.bind_apply (m : K α β) (f : β → K α γ) (k : γ → Prog α) : (m >>= f) k = m (fun x => f x k) := rfl

theorem K.pure_apply (x : β) (k : β → Prog α) : (pure x : K α β) k = k x := rfl

/-- The piece stays within the footprint of thread `(b, t)`; the value it returns satisfies `P`. -/
def Safe (F : Foot) (len : Arr → Nat) (b t : Nat) (m : K α β) (P : β → Prop) : Prop :=
  ∀ k : β → Prog α, (∀ x, P x → F.Fits len b t (k x)) → F.Fits len b t (m k)

section Safe
variable {F : Foot} {len : Arr → Nat} {b t : Nat}

theorem safe_pure {x : β} {P : β → Prop} (h : P x) : Safe F len b t (pure x : K α β) P := fun _ hk => hk x h

theorem safe_bind {m : K α β} {f : β → K α γ} {P : β → Prop} {Q : γ → Prop} (hm : Safe F len b t m P)
    (hf : ∀ x, P x → Safe F len b t (f x) Q) : Safe F len b t (m >>= f) Q :=
  fun k hk => hm _ fun x hx => hf x hx k hk

theorem safe_mono {m : K α β} {P Q : β → Prop} (hm : Safe F len b t m P) (h : ∀ x, P x → Q x) : Safe F len b t m Q :=
  fun k hk => hm k fun x hx => hk x (h x hx)

theorem safe_rd {a : Arr} {i : Int} (hi : InB len a i) (ha : F.own b t a i.toNat ∨ F.ro a i.toNat) :
    Safe F len b t (rd a i : K α α) (fun _ => True) := fun _ hk => ⟨hi, ha, fun x => hk x trivial⟩

theorem safe_wr {a : Arr} {i : Int} {x : α} (hi : InB len a i) (ha : F.own b t a i.toNat) :
    Safe F len b t (wr a i x) (fun _ => True) := fun _ hk => ⟨hi, ha, hk () trivial⟩

theorem safe_add {a : Arr} {i : Int} {x : α} (hi : InB len a i) (ha : F.acc a i.toNat) :
    Safe F len b t (atomicAdd a i x) (fun _ => True) := fun _ hk => ⟨hi, ha, hk () trivial⟩

theorem ird_ok {c : Buf β} {i : Int} (hi : 0 ≤ i) (hl : i < c.len) (k : β → Prog α) :
    ird c i k = k (c.val i.toNat) := by
  have : c.rdI i = .ok (c.val i.toNat) := by
    unfold Buf.rdI
    rw [if_pos hi, Buf.rd_lt (by omega)]
  simp only [ird, this]

theorem safe_ird {c : Buf β} {i : Int} (hi : 0 ≤ i) (hl : i < c.len) :
    Safe F len b t (ird c i : K α β) (fun x => x = c.val i.toNat) := by
  intro k hk
  rw [ird_ok hi hl]
  exact hk _ rfl

theorem safe_forIn {l : List β} {body : β → σ → K α σ} {I : σ → Prop}
    (h : ∀ x ∈ l, ∀ s, I s → Safe F len b t (body x s) I) {s : σ} (hs : I s) :
    Safe F len b t (forIn' l body s) I := by
  induction l generalizing s with
  | nil => exact safe_pure hs
  | cons x l ih =>
    refine safe_bind (h x (List.mem_cons_self ..) s hs) fun s' hs' => ?_
    exact ih (fun y hy => h y (List.mem_cons_of_mem _ hy)) hs'

theorem safe_forN {n : Nat} {body : Nat → σ → K α σ} {I : σ → Prop}
    (h : ∀ i < n, ∀ s, I s → Safe F len b t (body i s) I) {s : σ} (hs : I s) :
    Safe F len b t (forN n body s) I :=
  safe_forIn (fun i hi => h i (List.mem_range.mp hi)) hs

end Safe

/-! ## Effects -/

section Does
variable [AddCommMonoid α]

/-- Run alone on contents whose array `u` is `u₀`, the piece returns `x`, transforms the contents by `f` and makes the
atomic additions `d`. -/
def Does (u₀ : Nat → α) (m : K α β) (x : β) (f : Vals α → Vals α) (d : Vals α) : Prop :=
  ∀ s : Vals α, s .u = u₀ → f s .u = u₀ ∧ ∀ k : β → Prog α,
    exec (m k) s = exec (k x) (f s) ∧ adds (m k) s = fun a i => d a i + adds (k x) (f s) a i

variable {u₀ : Nat → α}

theorem does_pure (x : β) : Does u₀ (pure x : K α β) x id (fun _ _ => 0) :=
  fun s hs => ⟨hs, fun k => ⟨rfl, by funext a i; rw [zero_add]; rfl⟩⟩

theorem does_bind {m : K α β} {f : β → K α γ} {x : β} {y : γ} {g h : Vals α → Vals α} {d e : Vals α}
    (hm : Does u₀ m x g d) (hf : Does u₀ (f x) y h e) :
    Does u₀ (m >>= f) y (fun s => h (g s)) (fun a i => d a i + e a i) := by
  intro s hs
  have h1 := hm s hs
  have h2 := hf (g s) h1.1
  refine ⟨h2.1, fun k => ⟨?_, ?_⟩⟩
  · rw [K.bind_apply, (h1.2 _).1, (h2.2 k).1]
  · rw [K.bind_apply, (h1.2 _).2, (h2.2 k).2]
    funext a i
    exact (add_assoc _ _ _).symm

/-- A piece without effect. -/
def Gives (u₀ : Nat → α) (m : K α β) (x : β) : Prop := Does u₀ m x id (fun _ _ => 0)

theorem gives_pure (x : β) : Gives u₀ (pure x : K α β) x := does_pure x

theorem gives_bind {m : K α β} {f : β → K α γ} {x : β} {y : γ} (hm : Gives u₀ m x) (hf : Gives u₀ (f x) y) :
    Gives u₀ (m >>= f) y := by
  have := does_bind hm hf
  simp only [add_zero] at this
  exact this

theorem gives_does {m : K α β} {f : β → K α γ} {x : β} {y : γ} {h : Vals α → Vals α} {e : Vals α}
    (hm : Gives u₀ m x) (hf : Does u₀ (f x) y h e) : Does u₀ (m >>= f) y h e := by
  have := does_bind hm hf
  simp only [zero_add] at this
  exact this

theorem gives_rdu {i : Int} : Gives u₀ (rd .u i : K α α) (u₀ i.toNat) :=
  fun s hs => ⟨hs, fun k => ⟨by simp only [rd, exec, hs, id], by simp only [rd, adds, hs, id, zero_add]⟩⟩

theorem gives_ird {c : Buf β} {i : Int} (hi : 0 ≤ i) (hl : i < c.len) :
    Gives u₀ (ird c i : K α β) (c.val i.toNat) :=
  fun s hs => ⟨hs, fun k => by rw [ird_ok hi hl]; exact ⟨rfl, by simp only [id, zero_add]⟩⟩

theorem does_wrv {i : Int} {x : α} :
    Does u₀ (wr .v i x) () (fun s => upd s .v i.toNat x) (fun _ _ => 0) := by
  intro s hs
  refine ⟨?_, fun k => ⟨rfl, by simp only [wr, adds, zero_add]⟩⟩
  funext j
  simp only [upd, hs, reduceCtorEq, false_and, if_false]

/-- `v[i] += x` as a read followed by a write. -/
theorem does_incv {i : Int} {x : α} :
    Does u₀ (do let y ← rd .v i; wr .v i (y + x)) () (fun s => upd s .v i.toNat (s .v i.toNat + x))
      (fun _ _ => 0) := by
  intro s hs
  refine ⟨?_, fun k => ⟨rfl, ?_⟩⟩
  · funext j
    simp only [upd, hs, reduceCtorEq, false_and, if_false]
  · simp only [K.bind_apply, rd, wr, adds, zero_add]

theorem does_addv {i : Int} {x : α} :
    Does u₀ (atomicAdd .v i x) () id (fun a j => if a = .v ∧ j = i.toNat then x else 0) :=
  fun _ hs => ⟨hs, fun _ => ⟨rfl, rfl⟩⟩

theorem does_forIn {l : List β} {body : β → Unit → K α Unit} {f : β → Vals α → Vals α} {d : β → Vals α}
    (h : ∀ x ∈ l, Does u₀ (body x ()) () (f x) (d x)) :
    Does u₀ (forIn' l body ()) () (fun s => l.foldl (fun s x => f x s) s)
      (fun a i => (l.map fun x => d x a i).sum) := by
  induction l with
  | nil => exact does_pure ()
  | cons x l ih =>
    have := does_bind (f := fun s => forIn' l body s) (h x (List.mem_cons_self ..))
      (ih fun y hy => h y (List.mem_cons_of_mem _ hy))
    simpa [forIn'] using this

theorem does_forN {n : Nat} {body : Nat → Unit → K α Unit} {f : Nat → Vals α → Vals α} {d : Nat → Vals α}
    (h : ∀ i < n, Does u₀ (body i ()) () (f i) (d i)) :
    Does u₀ (forN n body ()) () (fun s => (List.range n).foldl (fun s x => f x s) s)
      (fun a i => ((List.range n).map fun x => d x a i).sum) :=
  does_forIn fun i hi => h i (List.mem_range.mp hi)

theorem gives_forIn {l : List β} {body : β → σ → K α σ} {g : β → σ → σ}
    (h : ∀ x ∈ l, ∀ s, Gives u₀ (body x s) (g x s)) (s : σ) :
    Gives u₀ (forIn' l body s) (l.foldl (fun s x => g x s) s) := by
  induction l generalizing s with
  | nil => exact gives_pure s
  | cons x l ih =>
    exact gives_bind (h x (List.mem_cons_self ..) s) (ih (fun y hy => h y (List.mem_cons_of_mem _ hy)) _)

theorem gives_forN {n : Nat} {body : Nat → σ → K α σ} {g : Nat → σ → σ}
    (h : ∀ i < n, ∀ s, Gives u₀ (body i s) (g i s)) (s : σ) :
    Gives u₀ (forN n body s) ((List.range n).foldl (fun s x => g x s) s) :=
  gives_forIn (fun i hi => h i (List.mem_range.mp hi)) s

end Does

/-! ## Loops with a stride -/

theorem mem_strideList {n step : Nat} {f i x : Nat} (hs : 0 < step) (hf : n ≤ i + f) :
    x ∈ strideList n step f i ↔ x < n ∧ ∃ j, x = i + j * step := by
  induction f generalizing i with
  | zero =>
    simp only [strideList, List.not_mem_nil, false_iff]
    rintro ⟨hx, j, rfl⟩
    have := Nat.zero_le (j * step)
    omega
  | succ f ih =>
    unfold strideList
    split
    · rename_i h
      rw [List.mem_cons, ih (by omega)]
      constructor
      · rintro (rfl | ⟨hx, j, rfl⟩)
        · exact ⟨h, 0, by simp⟩
        · exact ⟨hx, j + 1, by rw [Nat.add_mul, Nat.one_mul]; omega⟩
      · rintro ⟨hx, j, rfl⟩
        cases j with
        | zero => left; simp
        | succ j => right; exact ⟨hx, j, by rw [Nat.add_mul, Nat.one_mul]; omega⟩
    · rename_i h
      simp only [List.not_mem_nil, false_iff]
      rintro ⟨hx, j, rfl⟩
      have := Nat.zero_le (j * step)
      omega

theorem nodup_strideList {n step : Nat} (hs : 0 < step) (f i : Nat) : (strideList n step f i).Nodup := by
  induction f generalizing i with
  | zero => exact List.nodup_nil
  | succ f ih =>
    unfold strideList
    split
    · refine List.nodup_cons.mpr ⟨fun hm => ?_, ih _⟩
      have hlow : ∀ f i x, x ∈ strideList n step f i → i ≤ x := by
        intro f
        induction f with
        | zero => intro i x h; simp [strideList] at h
        | succ f ih' =>
          intro i x h
          unfold strideList at h
          split at h
          · rcases List.mem_cons.mp h with rfl | h
            · exact le_rfl
            · have := ih' _ _ h
              omega
          · simp at h
      have := hlow _ _ _ hm
      omega
    · exact List.nodup_nil

/-- The thread which handles index `x` in a grid of `G` blocks of `B` threads. -/
def Handles (G B b t x : Nat) : Prop := x % (B * G) = b * B + t

theorem gid_lt {G B b t : Nat} (hb : b < G) (ht : t < B) : b * B + t < B * G := by
  have : (b + 1) * B ≤ G * B := Nat.mul_le_mul_right B hb
  rw [Nat.add_mul, Nat.one_mul, Nat.mul_comm G B] at this
  omega

theorem gid_inj {B b t b' t' : Nat} (ht : t < B) (ht' : t' < B) (h : b * B + t = b' * B + t') : b = b' ∧ t = t' := by
  have hB : 0 < B := by omega
  have h1 : (b * B + t) / B = b := by rw [Nat.mul_comm, Nat.mul_add_div hB, Nat.div_eq_of_lt ht, Nat.add_zero]
  have h2 : (b' * B + t') / B = b' := by rw [Nat.mul_comm, Nat.mul_add_div hB, Nat.div_eq_of_lt ht', Nat.add_zero]
  have hb : b = b' := by rw [← h1, ← h2, h]
  subst hb
  exact ⟨rfl, by omega⟩

/-- In every grid the loop of thread `(b, t)` visits exactly the indices it handles. -/
theorem mem_stride {G B b t n x : Nat} (hb : b < G) (ht : t < B) :
    x ∈ strideList n (B * G) n (b * B + t) ↔ x < n ∧ Handles G B b t x := by
  have hg := gid_lt hb ht
  rw [mem_strideList (by omega) (by omega)]
  unfold Handles
  constructor
  · rintro ⟨hx, j, rfl⟩
    exact ⟨hx, by rw [Nat.mul_comm j, Nat.add_mul_mod_self_left, Nat.mod_eq_of_lt hg]⟩
  · rintro ⟨hx, hm⟩
    refine ⟨hx, x / (B * G), ?_⟩
    rw [← hm, Nat.mul_comm (x / (B * G)), Nat.mod_add_div]

theorem handles_inj {G B b t b' t' x : Nat} (ht : t < B) (ht' : t' < B) (h : Handles G B b t x)
    (h' : Handles G B b' t' x) : b = b' ∧ t = t' := gid_inj ht ht' (h.symm.trans h')

theorem handles_exists {G B : Nat} (hG : 0 < G) (hB : 0 < B) (x : Nat) :
    ∃ b < G, ∃ t < B, Handles G B b t x := by
  have hpos : 0 < B * G := Nat.mul_pos hB hG
  refine ⟨x % (B * G) / B, ?_, x % (B * G) % B, Nat.mod_lt _ hB, ?_⟩
  · exact Nat.div_lt_of_lt_mul (Nat.mod_lt _ hpos)
  · unfold Handles
    rw [Nat.mul_comm _ B, Nat.div_add_mod]

/-- Summing over the indices handled by each thread is summing over all indices. -/
theorem sum_stride {M : Type} [AddCommMonoid M] {G B n : Nat} (hG : 0 < G) (hB : 0 < B) (f : Nat → M) :
    ∑ x ∈ range G ×ˢ range B, ((strideList n (B * G) n (x.1 * B + x.2)).map f).sum = ∑ i ∈ range n, f i := by
  classical
  have hset : ∀ x ∈ range G ×ˢ range B, ((strideList n (B * G) n (x.1 * B + x.2)).map f).sum =
      ∑ i ∈ range n, if Handles G B x.1 x.2 i then f i else 0 := by
    intro x hx
    rw [Finset.mem_product, Finset.mem_range, Finset.mem_range] at hx
    rw [← Finset.sum_filter, ← List.sum_toFinset f (nodup_strideList (Nat.mul_pos hB hG) _ _)]
    refine Finset.sum_congr ?_ fun _ _ => rfl
    ext i
    rw [List.mem_toFinset, mem_stride hx.1 hx.2, Finset.mem_filter, Finset.mem_range]
  rw [Finset.sum_congr rfl hset, Finset.sum_comm]
  refine Finset.sum_congr rfl fun i _ => ?_
  obtain ⟨b, hb, t, ht, hh⟩ := handles_exists hG hB i
  rw [Finset.sum_eq_single (b, t)]
  · exact if_pos hh
  · rintro ⟨b', t'⟩ hx hne
    rw [Finset.mem_product, Finset.mem_range, Finset.mem_range] at hx
    refine if_neg fun h => hne ?_
    have := handles_inj hx.2 ht h hh
    exact Prod.ext this.1 this.2
  · intro hn
    exact (hn (by simp [hb, ht])).elim

end Verif.Gpu
