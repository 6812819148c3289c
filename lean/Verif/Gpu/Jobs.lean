import Verif.Gpu.Phase
import Verif.Gpu.Logic

/-!
# Phases made of loops over cells

A job is a loop `for (k = threadIdx.x; k < n; k += blockDim.x) body(k)` executed by a block; a kernel is a sequence of
jobs separated by barriers.
-/

namespace Verif.Gpu

variable {α : Type} {β γ σ : Type}

/-! ## Pieces of programs within a phase -/

/-- The piece stays within `own` and `ro`. -/
def SafeP (own ro : Arr → Nat → Prop) (len : Arr → Nat) (m : K α β) : Prop :=
  ∀ (fin : Prop) (k : β → Prog α), (∀ x, InPhase own ro len fin (k x)) → InPhase own ro len fin (m k)

section SafeP
variable {own ro : Arr → Nat → Prop} {len : Arr → Nat}

theorem safeP_pure (x : β) : SafeP own ro len (pure x : K α β) := fun _ _ hk => hk x

theorem safeP_bind {m : K α β} {f : β → K α γ} (hm : SafeP own ro len m) (hf : ∀ x, SafeP own ro len (f x)) :
    SafeP own ro len (m >>= f) := fun fin k hk => hm fin _ fun x => hf x fin k hk

theorem safeP_rd {a : Arr} {i : Int} (hi : InB len a i) (ha : own a i.toNat ∨ ro a i.toNat) :
    SafeP own ro len (rd a i : K α α) := fun _ _ hk => ⟨hi, ha, hk⟩

theorem safeP_wr {a : Arr} {i : Int} {x : α} (hi : InB len a i) (ha : own a i.toNat) :
    SafeP own ro len (wr a i x) := fun _ _ hk => ⟨hi, ha, hk ()⟩

theorem safeP_forIn {l : List β} {body : β → σ → K α σ} (h : ∀ x ∈ l, ∀ s, SafeP own ro len (body x s)) (s : σ) :
    SafeP own ro len (forIn' l body s) := by
  induction l generalizing s with
  | nil => exact safeP_pure s
  | cons x l ih =>
    exact safeP_bind (h x (List.mem_cons_self ..) s) fun s' => ih (fun y hy => h y (List.mem_cons_of_mem _ hy)) s'

theorem safeP_forN {n : Nat} {body : Nat → σ → K α σ} (h : ∀ i < n, ∀ s, SafeP own ro len (body i s)) (s : σ) :
    SafeP own ro len (forN n body s) := safeP_forIn (fun i hi => h i (List.mem_range.mp hi)) s

end SafeP

/-- Run alone on `s`, the piece returns `x` and leaves `s'`. -/
def Big (m : K α β) (s : Vals α) (x : β) (s' : Vals α) : Prop := ∀ k : β → Prog α, solo (m k) s = solo (k x) s'

theorem big_pure (x : β) (s : Vals α) : Big (pure x : K α β) s x s := fun _ => rfl

theorem big_bind {m : K α β} {f : β → K α γ} {s s' s'' : Vals α} {x : β} {y : γ} (hm : Big m s x s')
    (hf : Big (f x) s' y s'') : Big (m >>= f) s y s'' := fun k => (hm _).trans (hf k)

theorem big_rd (a : Arr) (i : Int) (s : Vals α) : Big (rd a i) s (s a i.toNat) s := fun _ => rfl

theorem big_wr (a : Arr) (i : Int) (x : α) (s : Vals α) : Big (wr a i x) s () (upd s a i.toNat x) := fun _ => rfl

/-- A loop whose body only reads. -/
theorem big_forIn_pure {l : List β} {body : β → σ → K α σ} {g : β → σ → σ} {s : Vals α}
    (h : ∀ x ∈ l, ∀ y, Big (body x y) s (g x y) s) (y : σ) :
    Big (forIn' l body y) s (l.foldl (fun y x => g x y) y) s := by
  induction l generalizing y with
  | nil => exact big_pure y s
  | cons x l ih => exact big_bind (h x (List.mem_cons_self ..) y) (ih (fun z hz => h z (List.mem_cons_of_mem _ hz)) _)

/-! ## Jobs -/

/-- A loop over cells: number of cells, body, entries written for cell `k`, entries read by everybody, effect of the
whole loop. -/
structure Job (α : Type) where
  n : Nat
  body : Nat → K α Unit
  outs : Nat → Arr → Nat → Prop
  ro : Arr → Nat → Prop
  eff : Vals α → Vals α

/-- The job of one thread. -/
def Job.seg (j : Job α) (B t : Nat) : K α Unit := strideFor j.n t B j.body

/-- Entries thread `t` writes. -/
def Job.own (j : Job α) (B t : Nat) (a : Arr) (i : Nat) : Prop := ∃ k < j.n, k % B = t ∧ j.outs k a i

/-- Cells do not interfere, accesses are within the arrays, and `eff` is what the body does. -/
structure Job.Ok (j : Job α) (len : Arr → Nat) : Prop where
  inj : ∀ k < j.n, ∀ k' < j.n, ∀ a i, j.outs k a i → j.outs k' a i → k = k'
  out_ro : ∀ k < j.n, ∀ a i, j.outs k a i → ¬ j.ro a i
  safe : ∀ k < j.n, ∀ own : Arr → Nat → Prop, (∀ a i, j.outs k a i → own a i) → SafeP own j.ro len (j.body k)
  big : ∀ k < j.n, ∀ s, ∃ s', Big (j.body k) s () s' ∧ (∀ a i, j.outs k a i → s' a i = j.eff s a i) ∧
    ∀ a i, ¬ j.outs k a i → s' a i = s a i
  loc : ∀ k < j.n, ∀ s s' : Vals α, (∀ a i, j.outs k a i ∨ j.ro a i → s a i = s' a i) →
    ∀ a i, j.outs k a i → j.eff s a i = j.eff s' a i
  keep : ∀ s a i, (∀ k < j.n, ¬ j.outs k a i) → j.eff s a i = s a i

section Job
variable {j : Job α} {len : Arr → Nat} {B t : Nat}

theorem mem_cells {n k : Nat} (ht : t < B) : k ∈ strideList n B n t ↔ k < n ∧ k % B = t := by
  rw [mem_strideList (by omega) (by omega)]
  constructor
  · rintro ⟨hk, m, rfl⟩
    exact ⟨hk, by rw [Nat.mul_comm, Nat.add_mul_mod_self_left, Nat.mod_eq_of_lt ht]⟩
  · rintro ⟨hk, hm⟩
    exact ⟨hk, k / B, by rw [← hm, Nat.mul_comm, Nat.mod_add_div]⟩

theorem Job.seg_safe (hj : j.Ok len) (ht : t < B) : SafeP (j.own B t) j.ro len (j.seg B t) := by
  refine safeP_forIn (σ := Unit) (fun k hk _ => ?_) ()
  obtain ⟨hn, hm⟩ := (mem_cells ht).mp hk
  exact hj.safe k hn _ fun a i ho => ⟨k, hn, hm, ho⟩

theorem Job.cells_big (hj : j.Ok len) {l : List Nat} (hl : ∀ k ∈ l, k < j.n) (hd : l.Nodup) (s : Vals α) :
    ∃ s', Big (forIn' l (fun k _ => j.body k) ()) s () s' ∧ (∀ k ∈ l, ∀ a i, j.outs k a i → s' a i = j.eff s a i) ∧
      ∀ a i, (∀ k ∈ l, ¬ j.outs k a i) → s' a i = s a i := by
  induction l generalizing s with
  | nil => exact ⟨s, big_pure () s, fun k hk => by simp at hk, fun _ _ _ => rfl⟩
  | cons k l ih =>
    have hk := hl k (List.mem_cons_self ..)
    obtain ⟨hnk, hd'⟩ := List.nodup_cons.mp hd
    obtain ⟨s1, b1, o1, n1⟩ := hj.big k hk s
    obtain ⟨s2, b2, o2, n2⟩ := ih (fun x hx => hl x (List.mem_cons_of_mem _ hx)) hd' s1
    have hkl : ∀ x ∈ l, x < j.n := fun x hx => hl x (List.mem_cons_of_mem _ hx)
    refine ⟨s2, big_bind b1 b2, fun x hx a i ho => ?_, fun a i h => ?_⟩
    · rcases List.mem_cons.mp hx with rfl | hx
      · rw [n2 a i fun y hy ho' => hnk (hj.inj x hk y (hkl y hy) a i ho ho' ▸ hy)]
        exact o1 a i ho
      · rw [o2 x hx a i ho]
        refine hj.loc x (hkl x hx) s1 s (fun a' i' h => n1 a' i' fun ho' => ?_) a i ho
        rcases h with h | h
        · exact hnk (hj.inj x (hkl x hx) k hk a' i' h ho' ▸ hx)
        · exact hj.out_ro k hk a' i' ho' h
    · rw [n2 a i fun y hy => h y (List.mem_cons_of_mem _ hy)]
      exact n1 a i (h k (List.mem_cons_self ..))

theorem Job.seg_big (hj : j.Ok len) (ht : t < B) (s : Vals α) :
    ∃ s', Big (j.seg B t) s () s' ∧ ∀ a i, j.own B t a i → s' a i = j.eff s a i := by
  obtain ⟨s', h1, h2, -⟩ := Job.cells_big hj (l := strideList j.n B j.n t) (fun k hk => ((mem_cells ht).mp hk).1)
    (nodup_strideList (by omega) _ _) s
  refine ⟨s', h1, fun a i ho => ?_⟩
  obtain ⟨k, hk, hm, ho⟩ := ho
  exact h2 k ((mem_cells ht).mpr ⟨hk, hm⟩) a i ho

end Job

/-! ## Sequences of jobs -/

/-- Pieces, each preceded by a barrier. -/
def phases : List (K α Unit) → K α Unit
  | [] => pure ()
  | m :: l => do
    syncthreads
    m
    phases l

/-- Pieces separated by barriers. -/
def runAll : List (K α Unit) → K α Unit
  | [] => pure ()
  | m :: l => do
    m
    phases l

theorem phases_append (l₁ l₂ : List (K α Unit)) : phases (l₁ ++ l₂) = (do phases l₁; phases l₂) := by
  induction l₁ with
  | nil => rfl
  | cons m l ih => simp only [List.cons_append, phases, ih]; rfl

theorem forIn_phases {l : List β} {body : β → K α Unit} {f : β → List (K α Unit)}
    (h : ∀ x ∈ l, body x = phases (f x)) : forIn' l (fun x _ => body x) () = phases (l.flatMap f) := by
  induction l with
  | nil => rfl
  | cons x l ih =>
    rw [List.flatMap_cons, phases_append, ← h x (List.mem_cons_self ..),
      ← ih fun y hy => h y (List.mem_cons_of_mem _ hy)]
    rfl

theorem forIn_congr {l : List β} {body body' : β → σ → K α σ} (h : ∀ x ∈ l, ∀ s, body x s = body' x s) (s : σ) :
    forIn' l body s = forIn' l body' s := by
  induction l generalizing s with
  | nil => rfl
  | cons x l ih =>
    show (body x s >>= fun s => forIn' l body s) = (body' x s >>= fun s => forIn' l body' s)
    rw [h x (List.mem_cons_self ..) s]
    exact congrArg _ (funext fun s => ih (fun y hy => h y (List.mem_cons_of_mem _ hy)) s)

theorem phases_cons (m : K α Unit) (l : List (K α Unit)) (k : Unit → Prog α) :
    phases (m :: l) k = .sync (runAll (m :: l) k) := rfl

/-- The effect of a sequence of jobs. -/
def effs (l : List (Job α)) (s : Vals α) : Vals α := l.foldl (fun s j => j.eff s) s

theorem effs_cons (j : Job α) (l : List (Job α)) (s : Vals α) : effs (j :: l) s = effs l (j.eff s) := rfl

theorem effs_append (l₁ l₂ : List (Job α)) (s : Vals α) : effs (l₁ ++ l₂) s = effs l₂ (effs l₁ s) := by
  unfold effs
  rw [List.foldl_append]

theorem effs_take {l : List (Job α)} {ph : Nat} (h : ph < l.length) (s : Vals α) :
    effs (l.take (ph + 1)) s = (l[ph]).eff (effs (l.take ph) s) := by
  rw [List.take_add_one, effs_append]
  simp [effs, h]

/-- A kernel that is a sequence of jobs per block runs on every schedule, and the entries block `b` may change end up as
the jobs of that block leave them. -/
theorem runs_jobs [Add α] {G B : Nat} {m : Mem α} {kern : Nat → Nat → K α Unit} (hB : 0 < B)
    (jobs : Nat → List (Job α)) (reg : Nat → Arr → Nat → Prop)
    (hne : ∀ b < G, jobs b ≠ [])
    (hkern : ∀ b < G, ∀ t < B, kern b t = runAll ((jobs b).map fun j => j.seg B t))
    (hok : ∀ b < G, ∀ j ∈ jobs b, j.Ok m.len)
    (hout : ∀ b < G, ∀ j ∈ jobs b, ∀ k < j.n, ∀ a i, j.outs k a i → reg b a i)
    (hro : ∀ b < G, ∀ j ∈ jobs b, ∀ a i, j.ro a i → ∀ b' < G, reg b' a i → b' = b)
    (hreg : ∀ b < G, ∀ b' < G, ∀ a i, reg b a i → reg b' a i → b' = b)
    {Q : Vals α → Prop}
    (hQ : ∀ s : Vals α, (∀ b < G, ∀ a i, reg b a i → s a i = effs (jobs b) m.val a i) →
      (∀ a i, (∀ b < G, ¬ reg b a i) → s a i = m.val a i) → Q s) :
    Runs G B (launch kern m) Q := by
  let jb : Nat → Nat → Job α := fun b ph => (jobs b).getD ph ⟨0, fun _ => pure (), fun _ _ _ => False, fun _ _ => False, id⟩
  let S : Phases α := {
    last := fun b => (jobs b).length - 1
    reg := reg
    val := fun b ph => effs ((jobs b).take ph) m.val
    prog := fun b ph t => runAll (((jobs b).drop ph).map fun j => j.seg B t) fun _ => .done
    own := fun b ph t => (jb b ph).own B t
    ro := fun b ph => (jb b ph).ro }
  have hlen : ∀ b < G, ∀ ph, ph ≤ S.last b → ph < (jobs b).length := by
    intro b hb ph h
    have := List.length_pos_of_ne_nil (hne b hb)
    have h' : ph ≤ (jobs b).length - 1 := h
    omega
  have hjb : ∀ b < G, ∀ ph, ph ≤ S.last b → ∃ h : ph < (jobs b).length, jb b ph = (jobs b)[ph] := by
    intro b hb ph h
    have hl := hlen b hb ph h
    exact ⟨hl, by simp [jb, List.getD, hl]⟩
  have hdrop : ∀ b < G, ∀ ph, ph ≤ S.last b → (jobs b).drop ph = jb b ph :: (jobs b).drop (ph + 1) := by
    intro b hb ph h
    obtain ⟨hl, e⟩ := hjb b hb ph h
    rw [e]
    exact List.drop_eq_getElem_cons hl
  have hmem : ∀ b < G, ∀ ph, ph ≤ S.last b → jb b ph ∈ jobs b := by
    intro b hb ph h
    obtain ⟨hl, e⟩ := hjb b hb ph h
    rw [e]
    exact List.getElem_mem hl
  have hval : ∀ b < G, ∀ ph, ph ≤ S.last b → S.val b (ph + 1) = (jb b ph).eff (S.val b ph) := by
    intro b hb ph h
    obtain ⟨hl, e⟩ := hjb b hb ph h
    rw [e]
    exact effs_take hl m.val
  have hrest : ∀ b < G, ∀ ph, ph ≤ S.last b → ∀ t, S.prog b ph t = (jb b ph).seg B t fun _ =>
      phases (((jobs b).drop (ph + 1)).map fun j => j.seg B t) fun _ => .done := by
    intro b hb ph h t
    show runAll (((jobs b).drop ph).map fun j => j.seg B t) _ = _
    rw [hdrop b hb ph h, List.map_cons]
    rfl
  have hmid : ∀ b < G, ∀ ph, ph < S.last b → ∀ t, (phases (((jobs b).drop (ph + 1)).map fun j => j.seg B t)
      fun _ => .done) = Prog.sync (S.prog b (ph + 1) t) := by
    intro b hb ph h t
    show _ = Prog.sync (runAll (((jobs b).drop (ph + 1)).map fun j => j.seg B t) _)
    rw [hdrop b hb (ph + 1) h, List.map_cons]
    exact phases_cons _ _ _
  have hend : ∀ b < G, ∀ t, (phases (((jobs b).drop (S.last b + 1)).map fun j => j.seg B t) fun _ => .done) =
      (Prog.done : Prog α) := by
    intro b hb t
    have : (jobs b).drop (S.last b + 1) = [] := by
      rw [List.drop_eq_nil_iff]
      show _ ≤ (jobs b).length - 1 + 1
      omega
    rw [this]
    rfl
  have hS : S.Describe G B (launch kern m) := by
    refine ⟨fun b hb t ht => ?_, fun b hb => rfl, fun b hb ph hph t ht => ?_, fun b hb ph hph t ht => ?_,
      fun b hb ph hph t ht a i ho => ?_, fun b hb ph hph a i h => ?_, fun b hb ph hph t ht a i ho => ?_,
      fun b hb ph hph t ht t' ht' a i ho ho' => ?_, fun b hb ph hph t ht a i ho hr => ?_,
      fun b hb ph hph a i hr => ?_, fun b hb b' hb' a i => hreg b hb b' hb' a i⟩
    · show runAll _ _ = kern b t _
      rw [hkern b hb t ht]
      rfl
    · rw [hrest b hb ph hph t]
      refine Job.seg_safe (hok b hb _ (hmem b hb ph hph)) ht _ _ fun _ => ?_
      rcases Nat.lt_or_ge ph (S.last b) with h | h
      · rw [hmid b hb ph h t]
        exact fun e => absurd e (Nat.ne_of_lt h)
      · have e : ph = S.last b := le_antisymm hph h
        subst e
        rw [hend b hb t]
        exact rfl
    · rw [hrest b hb ph hph.le t]
      obtain ⟨s', h1, -⟩ := Job.seg_big (hok b hb _ (hmem b hb ph hph.le)) ht (S.val b ph)
      rw [h1, hmid b hb ph hph t]
      rfl
    · rw [hrest b hb ph hph t]
      obtain ⟨s', h1, h2⟩ := Job.seg_big (hok b hb _ (hmem b hb ph hph)) ht (S.val b ph)
      rw [h1, hval b hb ph hph, ← h2 a i ho]
      rcases Nat.lt_or_ge ph (S.last b) with h | h
      · rw [hmid b hb ph h t]
        rfl
      · have e : ph = S.last b := le_antisymm hph h
        subst e
        rw [hend b hb t]
        rfl
    · rw [hval b hb ph hph]
      refine (hok b hb _ (hmem b hb ph hph)).keep _ a i fun k hk ho => ?_
      exact h (k % B) (Nat.mod_lt _ hB) ⟨k, hk, rfl, ho⟩
    · obtain ⟨k, hk, -, ho⟩ := ho
      exact hout b hb _ (hmem b hb ph hph) k hk a i ho
    · obtain ⟨k, hk, hm, ho⟩ := ho
      obtain ⟨k', hk', hm', ho'⟩ := ho'
      rw [← hm, ← hm', (hok b hb _ (hmem b hb ph hph)).inj k hk k' hk' a i ho ho']
    · obtain ⟨k, hk, -, ho⟩ := ho
      exact (hok b hb _ (hmem b hb ph hph)).out_ro k hk a i ho hr
    · exact hro b hb _ (hmem b hb ph hph) a i hr
  refine runs_phases hS hB fun s h1 h2 => hQ s (fun b hb a i hr => ?_) h2
  rw [h1 b hb a i hr]
  show effs ((jobs b).take ((jobs b).length - 1 + 1)) m.val a i = _
  rw [List.take_of_length_le (by omega)]

end Verif.Gpu
