import Verif.Gpu.Machine
import Mathlib.Algebra.BigOperators.Group.Finset.Sigma
import Mathlib.SetTheory.Ordinal.Rank
import Mathlib.Data.DFinsupp.WellFounded

/-!
# Every schedule ends, none blocks, and threads that do not interfere compute what they compute alone
-/

namespace Verif.Gpu
open Finset

variable {α : Type}

theorem upd_same (s : Vals α) (a : Arr) (i : Nat) (x : α) : upd s a i x a i = x := by simp [upd]

theorem upd_other (s : Vals α) {a a' : Arr} {i i' : Nat} (x : α) (h : ¬ (a' = a ∧ i' = i)) :
    upd s a i x a' i' = s a' i' := by simp [upd, h]

theorem setProg_same (p : Nat → Nat → Prog α) (b t : Nat) (q : Prog α) : setProg p b t q b t = q := by simp [setProg]

theorem setProg_other (p : Nat → Nat → Prog α) {b t b' t' : Nat} (q : Prog α) (h : ¬ (b' = b ∧ t' = t)) :
    setProg p b t q b' t' = p b' t' := by simp [setProg, h]

/-! ## Termination -/

/-- `q` is what is left of `p` after one step of the thread. -/
inductive Sub : Prog α → Prog α → Prop
  | rd (a : Arr) (i : Int) (k : α → Prog α) (x : α) : Sub (k x) (.rd a i k)
  | wr (a : Arr) (i : Int) (x : α) (k : Prog α) : Sub k (.wr a i x k)
  | add (a : Arr) (i : Int) (x : α) (k : Prog α) : Sub k (.add a i x k)
  | sync (k : Prog α) : Sub k (.sync k)

theorem sub_acc (p : Prog α) : Acc Sub p := by
  induction p with
  | done => exact ⟨_, fun q h => by cases h⟩
  | fault => exact ⟨_, fun q h => by cases h⟩
  | rd a i k ih => exact ⟨_, fun q h => by cases h; exact ih _⟩
  | wr a i x k ih => exact ⟨_, fun q h => by cases h; exact ih⟩
  | add a i x k ih => exact ⟨_, fun q h => by cases h; exact ih⟩
  | sync k ih => exact ⟨_, fun q h => by cases h; exact ih⟩

noncomputable def rk (p : Prog α) : Ordinal.{0} := (sub_acc p).rank

theorem rk_lt {p q : Prog α} (h : Sub q p) : rk q < rk p := Acc.rank_lt_of_rel (sub_acc p) h

theorem pass_le (p : Prog α) : rk p.pass ≤ rk p := by
  cases p <;> first | exact le_rfl | exact (rk_lt (Sub.sync _)).le

/-- The ranks of the threads of a launch. -/
noncomputable def rks (G B : Nat) (c : Cfg α) : Fin G × Fin B → Ordinal.{0} := fun x => rk (c.prog x.1 x.2)

theorem rks_lt [Add α] {G B : Nat} {c c' : Cfg α} (h : Step G B c c') : rks G B c' < rks G B c := by
  have key : ∀ {b t : Nat} {q : Prog α} {m : Mem α}, b < G → t < B → Sub q (c.prog b t) →
      rks G B ⟨m, setProg c.prog b t q⟩ < rks G B c := by
    intro b t q m hb ht hs
    rw [Pi.lt_def]
    refine ⟨fun x => ?_, ⟨(⟨b, hb⟩, ⟨t, ht⟩), ?_⟩⟩
    · show rk (setProg c.prog b t q x.1 x.2) ≤ rk (c.prog x.1 x.2)
      by_cases hx : ((x.1 : Nat) = b ∧ (x.2 : Nat) = t)
      · rw [hx.1, hx.2, setProg_same]
        exact (rk_lt hs).le
      · rw [setProg_other _ _ hx]
    · show rk (setProg c.prog b t q b t) < rk (c.prog b t)
      rw [setProg_same]
      exact rk_lt hs
  cases h with
  | rd hb ht h hi => exact key hb ht (h ▸ Sub.rd _ _ _ _)
  | wr hb ht h hi => exact key hb ht (h ▸ Sub.wr _ _ _ _)
  | add hb ht h hi => exact key hb ht (h ▸ Sub.add _ _ _ _)
  | @sync b t k hb ht h hall =>
    rw [Pi.lt_def]
    refine ⟨fun x => ?_, ⟨(⟨b, hb⟩, ⟨t, ht⟩), ?_⟩⟩
    · show rk (passBlock c.prog b x.1 x.2) ≤ rk (c.prog x.1 x.2)
      unfold passBlock
      split
      · exact pass_le _
      · exact le_rfl
    · show rk (passBlock c.prog b b t) < rk (c.prog b t)
      simp only [passBlock, if_true, h, Prog.pass]
      exact rk_lt (Sub.sync _)

/-- Every schedule ends. -/
theorem no_infinite_run [Add α] (G B : Nat) (c₀ : Cfg α) :
    ¬ ∃ f : Nat → Cfg α, f 0 = c₀ ∧ ∀ n, Step G B (f n) (f (n + 1)) := by
  rintro ⟨f, -, hf⟩
  have hw : WellFounded (fun x y : Fin G × Fin B → Ordinal.{0} => x < y) := wellFounded_lt
  exact (wellFounded_iff_isEmpty_descending_chain.mp hw).false
    ⟨fun n => rks G B (f n), fun n => rks_lt (hf n)⟩

/-- A launch that is not at fault never blocks. -/
theorem progress [Add α] {G B : Nat} {c : Cfg α} (h : ¬ Fault G B c) : Final G B c ∨ ∃ c', Step G B c c' := by
  by_cases hf : Final G B c
  · exact .inl hf
  refine .inr ?_
  unfold Final at hf
  push Not at hf
  obtain ⟨b, hb, t, ht, hne⟩ := hf
  have step : ∀ t < B, ¬ (c.prog b t).Waits → ∃ c', Step G B c c' := by
    intro t ht hw
    have hin : ∀ a i κ, (c.prog b t).next = some (a, i, κ) → InB c.mem.len a i := by
      intro a i κ hn
      by_contra hi
      exact h ⟨b, hb, t, ht, .inr ⟨a, i, κ, hn, hi⟩⟩
    cases hp : c.prog b t with
    | done => rw [hp] at hw; exact (hw trivial).elim
    | fault => exact (h ⟨b, hb, t, ht, .inl hp⟩).elim
    | rd a i k => exact ⟨_, .rd hb ht hp (hin a i _ (by rw [hp]; rfl))⟩
    | wr a i x k => exact ⟨_, .wr hb ht hp (hin a i _ (by rw [hp]; rfl))⟩
    | add a i x k => exact ⟨_, .add hb ht hp (hin a i _ (by rw [hp]; rfl))⟩
    | sync k => rw [hp] at hw; exact (hw trivial).elim
  by_cases hall : ∀ t' < B, (c.prog b t').Waits
  · have hw := hall t ht
    cases hp : c.prog b t with
    | done => exact (hne hp).elim
    | sync k => exact ⟨_, .sync hb ht hp hall⟩
    | fault => rw [hp] at hw; exact hw.elim
    | rd a i k => rw [hp] at hw; exact hw.elim
    | wr a i x k => rw [hp] at hw; exact hw.elim
    | add a i x k => rw [hp] at hw; exact hw.elim
  · push Not at hall
    obtain ⟨t', ht', hw⟩ := hall
    exact step t' ht' hw

/-! ## Threads without barriers -/

section Solo
variable [AddCommMonoid α]

/-- Contents left by the plain accesses of a thread running alone (up to its first barrier). -/
def exec : Prog α → Vals α → Vals α
  | .rd a i k, s => exec (k (s a i.toNat)) s
  | .wr a i x k, s => exec k (upd s a i.toNat x)
  | .add _ _ _ k, s => exec k s
  | _, s => s

/-- Sum of the atomic additions of a thread running alone. -/
def adds : Prog α → Vals α → Vals α
  | .rd a i k, s => adds (k (s a i.toNat)) s
  | .wr a i x k, s => adds k (upd s a i.toNat x)
  | .add a i x k, s => fun a' i' => (if a' = a ∧ i' = i.toNat then x else 0) + adds k s a' i'
  | _, _ => fun _ _ => 0

/-- Which entries a thread alone may write, which everybody may read, which everybody may add to atomically. -/
structure Foot where
  own : Nat → Nat → Arr → Nat → Prop
  ro : Arr → Nat → Prop
  acc : Arr → Nat → Prop

/-- No two threads share an entry one of them writes. -/
structure Foot.Apart (F : Foot) (G B : Nat) : Prop where
  own_own : ∀ {b t b' t' a i}, b < G → t < B → b' < G → t' < B → F.own b t a i → F.own b' t' a i → b = b' ∧ t = t'
  own_ro : ∀ {b t a i}, b < G → t < B → F.own b t a i → ¬ F.ro a i
  own_acc : ∀ {b t a i}, b < G → t < B → F.own b t a i → ¬ F.acc a i
  ro_acc : ∀ {a i}, F.ro a i → ¬ F.acc a i

/-- Thread `(b, t)` stays within its footprint and within the arrays, and uses no barrier. -/
def Foot.Fits (F : Foot) (len : Arr → Nat) (b t : Nat) : Prog α → Prop
  | .done => True
  | .fault => False
  | .rd a i k => InB len a i ∧ (F.own b t a i.toNat ∨ F.ro a i.toNat) ∧ ∀ x, F.Fits len b t (k x)
  | .wr a i _ k => InB len a i ∧ F.own b t a i.toNat ∧ F.Fits len b t k
  | .add a i _ k => InB len a i ∧ F.acc a i.toNat ∧ F.Fits len b t k
  | .sync _ => False

variable {F : Foot} {len : Arr → Nat} {b t : Nat}

/-- A thread's effect only depends on what it may read. -/
theorem agree {p : Prog α} (hp : F.Fits len b t p) {s s' : Vals α}
    (h : ∀ a i, F.own b t a i ∨ F.ro a i → s a i = s' a i) :
    (∀ a i, F.own b t a i ∨ F.ro a i → exec p s a i = exec p s' a i) ∧ adds p s = adds p s' := by
  induction p generalizing s s' with
  | done => exact ⟨h, rfl⟩
  | fault => exact hp.elim
  | rd a i k ih =>
    simp only [exec, adds]
    rw [h a _ hp.2.1]
    exact ih _ (hp.2.2 _) h
  | wr a i x k ih =>
    simp only [exec, adds]
    refine ih hp.2.2 fun a' i' ha => ?_
    by_cases hl : a' = a ∧ i' = i.toNat
    · rw [hl.1, hl.2, upd_same, upd_same]
    · rw [upd_other _ _ hl, upd_other _ _ hl]
      exact h _ _ ha
  | add a i x k ih =>
    simp only [exec, adds]
    have := ih hp.2.2 h
    exact ⟨this.1, by rw [this.2]⟩
  | sync k => exact hp.elim

/-- State of a launch relative to its start. -/
structure Good (F : Foot) (G B : Nat) (c₀ c : Cfg α) : Prop where
  len : c.mem.len = c₀.mem.len
  fits : ∀ b < G, ∀ t < B, F.Fits c₀.mem.len b t (c.prog b t)
  own : ∀ b < G, ∀ t < B, ∀ a i, F.own b t a i →
    exec (c.prog b t) c.mem.val a i = exec (c₀.prog b t) c₀.mem.val a i
  other : ∀ a i, ¬ F.acc a i → (∀ b < G, ∀ t < B, ¬ F.own b t a i) → c.mem.val a i = c₀.mem.val a i
  acc : ∀ a i, F.acc a i →
    c.mem.val a i + ∑ x ∈ range G ×ˢ range B, adds (c.prog x.1 x.2) c.mem.val a i =
      c₀.mem.val a i + ∑ x ∈ range G ×ˢ range B, adds (c₀.prog x.1 x.2) c₀.mem.val a i

variable {G B : Nat}

theorem Good.ro {c₀ c : Cfg α} (hF : F.Apart G B) (h : Good F G B c₀ c) {a : Arr} {i : Nat} (hr : F.ro a i) :
    c.mem.val a i = c₀.mem.val a i :=
  h.other a i (hF.ro_acc hr) fun _ hb _ ht ho => hF.own_ro hb ht ho hr

/-- A step of thread `(b, t)` that leaves its future, and what the others may read, as they were. -/
theorem Good.move {c₀ c : Cfg α} (hF : F.Apart G B) (hg : Good F G B c₀ c) {b t : Nat} (hb : b < G) (ht : t < B)
    {q : Prog α} {s : Vals α} (hq : F.Fits c₀.mem.len b t q)
    (hown : ∀ a i, F.own b t a i → exec q s a i = exec (c.prog b t) c.mem.val a i)
    (hsame : ∀ a i, ¬ F.acc a i → ¬ F.own b t a i → s a i = c.mem.val a i)
    (hacc : ∀ a i, F.acc a i → s a i + adds q s a i = c.mem.val a i + adds (c.prog b t) c.mem.val a i) :
    Good F G B c₀ ⟨⟨c.mem.len, s⟩, setProg c.prog b t q⟩ := by
  have hoth : ∀ b' < G, ∀ t' < B, ¬ (b' = b ∧ t' = t) → ∀ a i, F.own b' t' a i ∨ F.ro a i →
      s a i = c.mem.val a i := by
    intro b' hb' t' ht' hne a i h
    rcases h with h | h
    · exact hsame a i (hF.own_acc hb' ht' h) fun ho => hne (hF.own_own hb' ht' hb ht h ho)
    · exact hsame a i (hF.ro_acc h) fun ho => hF.own_ro hb ht ho h
  refine ⟨hg.len, fun b' hb' t' ht' => ?_, fun b' hb' t' ht' a i ho => ?_, fun a i hna hno => ?_, fun a i ha => ?_⟩
  · show F.Fits c₀.mem.len b' t' (setProg c.prog b t q b' t')
    by_cases hne : b' = b ∧ t' = t
    · rw [hne.1, hne.2, setProg_same]
      exact hq
    · rw [setProg_other _ _ hne]
      exact hg.fits b' hb' t' ht'
  · by_cases hne : b' = b ∧ t' = t
    · obtain ⟨rfl, rfl⟩ := hne
      show exec (setProg c.prog b' t' q b' t') s a i = _
      rw [setProg_same, hown a i ho]
      exact hg.own b' hb' t' ht' a i ho
    · show exec (setProg c.prog b t q b' t') s a i = _
      rw [setProg_other _ _ hne, (agree (hg.fits b' hb' t' ht') (hoth b' hb' t' ht' hne)).1 a i (.inl ho)]
      exact hg.own b' hb' t' ht' a i ho
  · exact (hsame a i hna (hno b hb t ht)).trans (hg.other a i hna hno)
  · rw [← hg.acc a i ha]
    have hmem : (b, t) ∈ range G ×ˢ range B := by simp [hb, ht]
    rw [← Finset.add_sum_erase _ _ hmem, ← Finset.add_sum_erase _ _ hmem]
    show s a i + (adds (setProg c.prog b t q b t) s a i + _) = _
    rw [setProg_same, ← add_assoc, ← add_assoc, hacc a i ha]
    congr 1
    refine Finset.sum_congr rfl fun x hx => ?_
    rw [Finset.mem_erase, Finset.mem_product, Finset.mem_range, Finset.mem_range] at hx
    have hne : ¬ (x.1 = b ∧ x.2 = t) := fun h => hx.1 (Prod.ext h.1 h.2)
    show adds (setProg c.prog b t q x.1 x.2) s a i = _
    rw [setProg_other _ _ hne, (agree (hg.fits _ hx.2.1 _ hx.2.2) (hoth _ hx.2.1 _ hx.2.2 hne)).2]

theorem good_step {c₀ c c' : Cfg α} (hF : F.Apart G B) (hg : Good F G B c₀ c) (h : Step G B c c') :
    Good F G B c₀ c' := by
  cases h with
  | @rd b t a i k hb ht h hi =>
    have hf := hg.fits b hb t ht
    rw [h] at hf
    exact hg.move hF hb ht (hf.2.2 _) (fun _ _ _ => by rw [h]; rfl) (fun _ _ _ _ => rfl) (fun _ _ _ => by rw [h]; rfl)
  | @wr b t a i x k hb ht h hi =>
    have hf := hg.fits b hb t ht
    rw [h] at hf
    refine hg.move hF hb ht hf.2.2 (fun _ _ _ => by rw [h]; rfl) (fun a' i' _ hno => ?_) (fun a' i' ha => ?_)
    · exact upd_other _ _ fun hl => hno (hl.1 ▸ hl.2 ▸ hf.2.1)
    · rw [h, upd_other]
      · rfl
      · exact fun hl => hF.own_acc hb ht hf.2.1 (hl.1 ▸ hl.2 ▸ ha)
  | @add b t a i x k hb ht h hi =>
    have hf := hg.fits b hb t ht
    rw [h] at hf
    have hs : ∀ a' i', F.own b t a' i' ∨ F.ro a' i' →
        upd c.mem.val a i.toNat (c.mem.val a i.toNat + x) a' i' = c.mem.val a' i' := by
      intro a' i' ho
      refine upd_other _ _ fun hl => ?_
      have hacc : F.acc a' i' := hl.1 ▸ hl.2 ▸ hf.2.1
      rcases ho with ho | ho
      · exact hF.own_acc hb ht ho hacc
      · exact hF.ro_acc ho hacc
    refine hg.move hF hb ht hf.2.2 (fun a' i' ho => ?_) (fun a' i' hna _ => ?_) (fun a' i' ha => ?_)
    · rw [h, (agree hf.2.2 hs).1 a' i' (.inl ho)]
      rfl
    · exact upd_other _ _ fun hl => hna (hl.1 ▸ hl.2 ▸ hf.2.1)
    · rw [h, (agree hf.2.2 hs).2]
      simp only [adds]
      by_cases hl : a' = a ∧ i' = i.toNat
      · rw [hl.1, hl.2, upd_same, if_pos ⟨rfl, rfl⟩, add_assoc]
      · rw [upd_other _ _ hl, if_neg hl, zero_add]
  | @sync b t k hb ht h hall =>
    have hf := hg.fits b hb t ht
    rw [h] at hf
    exact hf.elim

/-- A launch starts from given programs within their footprints. -/
theorem good_start {c₀ : Cfg α} (hfit : ∀ b < G, ∀ t < B, F.Fits c₀.mem.len b t (c₀.prog b t)) : Good F G B c₀ c₀ :=
  ⟨rfl, hfit, fun _ _ _ _ _ _ _ => rfl, fun _ _ _ _ => rfl, fun _ _ _ => rfl⟩

theorem good_reach {c₀ c : Cfg α} (hF : F.Apart G B)
    (hfit : ∀ b < G, ∀ t < B, F.Fits c₀.mem.len b t (c₀.prog b t)) (h : Reach G B c₀ c) : Good F G B c₀ c := by
  induction h with
  | start => exact good_start hfit
  | step _ hs ih => exact good_step hF ih hs

theorem Good.no_fault {c₀ c : Cfg α} (hg : Good F G B c₀ c) : ¬ Fault G B c := by
  rintro ⟨b, hb, t, ht, h | ⟨a, i, κ, hn, hi⟩⟩
  · have := hg.fits b hb t ht
    rw [h] at this
    exact this
  · have hf := hg.fits b hb t ht
    rw [hg.len] at hi
    cases hp : c.prog b t <;> rw [hp] at hf hn <;> simp only [Prog.next, Option.some.injEq, Prod.mk.injEq, reduceCtorEq] at hn
    all_goals
      obtain ⟨rfl, rfl, -⟩ := hn
      exact hi hf.1

theorem Good.no_race {c₀ c : Cfg α} (hF : F.Apart G B) (hg : Good F G B c₀ c) : ¬ Race G B c := by
  rintro ⟨b, hb, t, ht, b', hb', t', ht', hne, a, i, κ, κ', hn, hn', hr, hw⟩
  have hne' : ¬ (b = b' ∧ t = t') := fun h => hne (Prod.ext h.1 h.2)
  have key : ∀ {b t : Nat} {κ : Kind}, b < G → t < B → (c.prog b t).next = some (a, i, κ) →
      (κ = .read ∧ (F.own b t a i.toNat ∨ F.ro a i.toNat)) ∨ (κ = .write ∧ F.own b t a i.toNat) ∨
        (κ = .atomic ∧ F.acc a i.toNat) := by
    intro b t κ hb ht hn
    have hf := hg.fits b hb t ht
    cases hp : c.prog b t <;> rw [hp] at hf hn <;> simp only [Prog.next, Option.some.injEq, Prod.mk.injEq, reduceCtorEq] at hn
    all_goals obtain ⟨rfl, rfl, rfl⟩ := hn
    · exact .inl ⟨rfl, hf.2.1⟩
    · exact .inr (.inl ⟨rfl, hf.2.1⟩)
    · exact .inr (.inr ⟨rfl, hf.2.1⟩)
  have own_own := fun h h' => hne' (hF.own_own (a := a) (i := i.toNat) hb ht hb' ht' h h')
  rcases key hb ht hn with ⟨h1, h⟩ | ⟨h1, h⟩ | ⟨h1, h⟩ <;> rcases key hb' ht' hn' with ⟨h2, h'⟩ | ⟨h2, h'⟩ | ⟨h2, h'⟩
  · exact hr ⟨h1, h2⟩
  · rcases h with h | h
    · exact own_own h h'
    · exact hF.own_ro hb' ht' h' h
  · rcases h with h | h
    · exact hF.own_acc hb ht h h'
    · exact hF.ro_acc h h'
  · rcases h' with h' | h'
    · exact own_own h h'
    · exact hF.own_ro hb ht h h'
  · exact own_own h h'
  · exact hF.own_acc hb ht h h'
  · rcases h' with h' | h'
    · exact hF.own_acc hb' ht' h' h
    · exact hF.ro_acc h' h
  · exact hF.own_acc hb' ht' h' h
  · exact hw ⟨h1, h2⟩

/-- Threads that stay apart compute, on every schedule, what each of them computes alone, and the atomic additions add
up. -/
theorem runs_apart {c₀ : Cfg α} (hF : F.Apart G B)
    (hfit : ∀ b < G, ∀ t < B, F.Fits c₀.mem.len b t (c₀.prog b t)) {Q : Vals α → Prop}
    (hQ : ∀ s : Vals α,
      (∀ b < G, ∀ t < B, ∀ a i, F.own b t a i → s a i = exec (c₀.prog b t) c₀.mem.val a i) →
      (∀ a i, F.acc a i → s a i =
        c₀.mem.val a i + ∑ x ∈ range G ×ˢ range B, adds (c₀.prog x.1 x.2) c₀.mem.val a i) →
      (∀ a i, ¬ F.acc a i → (∀ b < G, ∀ t < B, ¬ F.own b t a i) → s a i = c₀.mem.val a i) → Q s) :
    Runs G B c₀ Q where
  safe c h := ⟨(good_reach hF hfit h).no_fault, (good_reach hF hfit h).no_race hF⟩
  ends := no_infinite_run G B c₀
  progress c h := progress (good_reach hF hfit h).no_fault
  result c h hfin := by
    have hg := good_reach hF hfit h
    refine hQ _ (fun b hb t ht a i ho => ?_) (fun a i ha => ?_) hg.other
    · have := hg.own b hb t ht a i ho
      rwa [hfin b hb t ht] at this
    · rw [← hg.acc a i ha, Finset.sum_eq_zero, add_zero]
      intro x hx
      rw [Finset.mem_product, Finset.mem_range, Finset.mem_range] at hx
      rw [hfin _ hx.1 _ hx.2]
      rfl

end Solo

end Verif.Gpu
