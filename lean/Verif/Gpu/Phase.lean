import Verif.Gpu.Sched

/-!
# Kernels with barriers

The threads of a block pass through the same sequence of phases, separated by barriers. If within each phase no thread
writes what another one accesses, the launch computes, on every schedule, what is obtained by running the threads of a
block one after the other, phase by phase.
-/

namespace Verif.Gpu

variable {α : Type}

/-- Run a thread alone up to its next barrier or its end: contents left and what remains of the program. -/
def solo : Prog α → Vals α → Vals α × Prog α
  | .rd a i k, s => solo (k (s a i.toNat)) s
  | .wr a i x k, s => solo k (upd s a i.toNat x)
  | .sync k, s => (s, k)
  | p, s => (s, p)

/-- Up to the next barrier (`fin = false`) or its end (`fin = true`) the thread reads only entries in `own` or `ro`, writes
only entries in `own`, stays within the arrays, and makes no atomic addition. -/
def InPhase (own ro : Arr → Nat → Prop) (len : Arr → Nat) (fin : Prop) : Prog α → Prop
  | .done => fin
  | .fault => False
  | .rd a i k => InB len a i ∧ (own a i.toNat ∨ ro a i.toNat) ∧ ∀ x, InPhase own ro len fin (k x)
  | .wr a i _ k => InB len a i ∧ own a i.toNat ∧ InPhase own ro len fin k
  | .add _ _ _ _ => False
  | .sync _ => ¬ fin

theorem solo_agree {own ro : Arr → Nat → Prop} {len : Arr → Nat} {fin : Prop} {p : Prog α}
    (hp : InPhase own ro len fin p) {s s' : Vals α} (h : ∀ a i, own a i ∨ ro a i → s a i = s' a i) :
    (∀ a i, own a i ∨ ro a i → (solo p s).1 a i = (solo p s').1 a i) ∧ (solo p s).2 = (solo p s').2 := by
  induction p generalizing s s' with
  | done => exact ⟨h, rfl⟩
  | fault => exact hp.elim
  | rd a i k ih =>
    simp only [solo]
    rw [h a _ hp.2.1]
    exact ih _ (hp.2.2 _) h
  | wr a i x k ih =>
    simp only [solo]
    refine ih hp.2.2 fun a' i' ha => ?_
    by_cases hl : a' = a ∧ i' = i.toNat
    · rw [hl.1, hl.2, upd_same, upd_same]
    · rw [upd_other _ _ hl, upd_other _ _ hl]
      exact h _ _ ha
  | add a i x k ih => exact hp.elim
  | sync k => exact ⟨h, rfl⟩

/-- A thread changes only what it owns. -/
theorem solo_keep {own ro : Arr → Nat → Prop} {len : Arr → Nat} {fin : Prop} {p : Prog α}
    (hp : InPhase own ro len fin p) {s : Vals α} {a : Arr} {i : Nat} (h : ¬ own a i) : (solo p s).1 a i = s a i := by
  induction p generalizing s with
  | done => rfl
  | fault => rfl
  | rd a' i' k ih => exact ih _ (hp.2.2 _)
  | wr a' i' x k ih =>
    show (solo k _).1 a i = _
    rw [ih hp.2.2, upd_other]
    exact fun hl => h (hl.1 ▸ hl.2 ▸ hp.2.1)
  | add a' i' x k ih => exact hp.elim
  | sync k => rfl

/-- The phases of a launch. For block `b`: the number of its last phase, the entries it may change in any phase, the
contents its threads find at the beginning of each phase and what is left of their programs then, which entries each
thread alone may write in a phase, and which all of them may read. -/
structure Phases (α : Type) where
  last : Nat → Nat
  reg : Nat → Arr → Nat → Prop
  val : Nat → Nat → Vals α
  prog : Nat → Nat → Nat → Prog α
  own : Nat → Nat → Nat → Arr → Nat → Prop
  ro : Nat → Nat → Arr → Nat → Prop

/-- The phases describe a launch: programs and contents follow from one phase to the next, and threads stay apart. -/
structure Phases.Describe (S : Phases α) (G B : Nat) (c₀ : Cfg α) : Prop where
  start_prog : ∀ b < G, ∀ t < B, S.prog b 0 t = c₀.prog b t
  start_val : ∀ b < G, S.val b 0 = c₀.mem.val
  fits : ∀ b < G, ∀ ph ≤ S.last b, ∀ t < B,
    InPhase (S.own b ph t) (S.ro b ph) c₀.mem.len (ph = S.last b) (S.prog b ph t)
  next : ∀ b < G, ∀ ph < S.last b, ∀ t < B, (solo (S.prog b ph t) (S.val b ph)).2 = S.prog b (ph + 1) t
  eff : ∀ b < G, ∀ ph ≤ S.last b, ∀ t < B, ∀ a i, S.own b ph t a i →
    (solo (S.prog b ph t) (S.val b ph)).1 a i = S.val b (ph + 1) a i
  keep : ∀ b < G, ∀ ph ≤ S.last b, ∀ a i, (∀ t < B, ¬ S.own b ph t a i) → S.val b (ph + 1) a i = S.val b ph a i
  own_reg : ∀ b < G, ∀ ph ≤ S.last b, ∀ t < B, ∀ a i, S.own b ph t a i → S.reg b a i
  own_own : ∀ b < G, ∀ ph ≤ S.last b, ∀ t < B, ∀ t' < B, ∀ a i, S.own b ph t a i → S.own b ph t' a i → t = t'
  own_ro : ∀ b < G, ∀ ph ≤ S.last b, ∀ t < B, ∀ a i, S.own b ph t a i → ¬ S.ro b ph a i
  ro_reg : ∀ b < G, ∀ ph ≤ S.last b, ∀ a i, S.ro b ph a i → ∀ b' < G, S.reg b' a i → b' = b
  reg_reg : ∀ b < G, ∀ b' < G, ∀ a i, S.reg b a i → S.reg b' a i → b' = b

variable {S : Phases α} {G B : Nat} {c₀ c : Cfg α}

/-- State of a block in phase `ph`. -/
structure InPh (S : Phases α) (G B : Nat) (c₀ c : Cfg α) (b ph : Nat) : Prop where
  le : ph ≤ S.last b
  fits : ∀ t < B, InPhase (S.own b ph t) (S.ro b ph) c₀.mem.len (ph = S.last b) (c.prog b t)
  next : ph < S.last b → ∀ t < B, (solo (c.prog b t) c.mem.val).2 = S.prog b (ph + 1) t
  eff : ∀ t < B, ∀ a i, S.own b ph t a i → (solo (c.prog b t) c.mem.val).1 a i = S.val b (ph + 1) a i
  keep : ∀ a i, (∀ b' < G, S.reg b' a i → b' = b) → (∀ t < B, ¬ S.own b ph t a i) → c.mem.val a i = S.val b ph a i

/-- State of a launch relative to its description. -/
structure PGood (S : Phases α) (G B : Nat) (c₀ c : Cfg α) : Prop where
  len : c.mem.len = c₀.mem.len
  other : ∀ a i, (∀ b < G, ¬ S.reg b a i) → c.mem.val a i = c₀.mem.val a i
  blk : ∀ b < G, ∃ ph, InPh S G B c₀ c b ph

theorem pgood_start (hS : S.Describe G B c₀) : PGood S G B c₀ c₀ := by
  refine ⟨rfl, fun _ _ _ => rfl, fun b hb => ⟨0, Nat.zero_le _, fun t ht => ?_, fun h t ht => ?_, fun t ht a i ho => ?_,
    fun a i _ _ => ?_⟩⟩
  · rw [← hS.start_prog b hb t ht]
    exact hS.fits b hb 0 (Nat.zero_le _) t ht
  · rw [← hS.start_prog b hb t ht, ← hS.start_val b hb]
    exact hS.next b hb 0 h t ht
  · rw [← hS.start_prog b hb t ht, ← hS.start_val b hb]
    exact hS.eff b hb 0 (Nat.zero_le _) t ht a i ho
  · rw [hS.start_val b hb]

/-- A step of a thread within its phase. -/
theorem PGood.move (hS : S.Describe G B c₀) (hg : PGood S G B c₀ c) {b t : Nat} (hb : b < G) (ht : t < B)
    {q : Prog α} {s : Vals α}
    (hq : ∀ own ro fin, InPhase own ro c₀.mem.len fin (c.prog b t) → InPhase own ro c₀.mem.len fin q ∧
      (∀ a i, ¬ own a i → s a i = c.mem.val a i))
    (hsolo : solo q s = solo (c.prog b t) c.mem.val) :
    PGood S G B c₀ ⟨⟨c.mem.len, s⟩, setProg c.prog b t q⟩ := by
  obtain ⟨ph, hph⟩ := hg.blk b hb
  obtain ⟨hfit, hsame⟩ := hq _ _ _ (hph.fits t ht)
  have hreg : ∀ a i, S.own b ph t a i → S.reg b a i := hS.own_reg b hb ph hph.le t ht
  refine ⟨hg.len, fun a i h => ?_, fun b' hb' => ?_⟩
  · show s a i = _
    rw [hsame a i fun ho => h b hb (hreg a i ho)]
    exact hg.other a i h
  · by_cases hbb : b' = b
    · subst hbb
      refine ⟨ph, hph.le, fun t' ht' => ?_, fun hl t' ht' => ?_, fun t' ht' a i ho => ?_, fun a i h1 h2 => ?_⟩
      · show InPhase _ _ _ _ (setProg c.prog b' t q b' t')
        by_cases htt : t' = t
        · subst htt
          rw [setProg_same]
          exact hfit
        · rw [setProg_other _ _ fun h => htt h.2]
          exact hph.fits t' ht'
      · show (solo (setProg c.prog b' t q b' t') s).2 = _
        by_cases htt : t' = t
        · subst htt
          rw [setProg_same, hsolo]
          exact hph.next hl t' ht'
        · rw [setProg_other _ _ fun h => htt h.2]
          rw [(solo_agree (hph.fits t' ht') (s := s) (s' := c.mem.val) fun a i h => ?_).2]
          · exact hph.next hl t' ht'
          · refine hsame a i fun ho => ?_
            rcases h with h | h
            · exact htt (hS.own_own b' hb ph hph.le t' ht' t ht a i h ho)
            · exact hS.own_ro b' hb ph hph.le t ht a i ho h
      · show (solo (setProg c.prog b' t q b' t') s).1 a i = _
        by_cases htt : t' = t
        · subst htt
          rw [setProg_same, hsolo]
          exact hph.eff t' ht' a i ho
        · rw [setProg_other _ _ fun h => htt h.2]
          rw [(solo_agree (hph.fits t' ht') (s := s) (s' := c.mem.val) fun a i h => ?_).1 a i (.inl ho)]
          · exact hph.eff t' ht' a i ho
          · refine hsame a i fun ho => ?_
            rcases h with h | h
            · exact htt (hS.own_own b' hb ph hph.le t' ht' t ht a i h ho)
            · exact hS.own_ro b' hb ph hph.le t ht a i ho h
      · show s a i = _
        rw [hsame a i (h2 t ht)]
        exact hph.keep a i h1 h2
    · obtain ⟨ph', hph'⟩ := hg.blk b' hb'
      have hsee : ∀ t' < B, ∀ a i, S.own b' ph' t' a i ∨ S.ro b' ph' a i → s a i = c.mem.val a i := by
        intro t' ht' a i h
        refine hsame a i fun ho => hbb ?_
        rcases h with h | h
        · exact hS.reg_reg b hb b' hb' a i (hreg a i ho) (hS.own_reg b' hb' ph' hph'.le t' ht' a i h)
        · exact (hS.ro_reg b' hb' ph' hph'.le a i h b hb (hreg a i ho)).symm
      refine ⟨ph', hph'.le, fun t' ht' => ?_, fun hl t' ht' => ?_, fun t' ht' a i ho => ?_, fun a i h1 h2 => ?_⟩
      · show InPhase _ _ _ _ (setProg c.prog b t q b' t')
        rw [setProg_other _ _ fun h => hbb h.1]
        exact hph'.fits t' ht'
      · show (solo (setProg c.prog b t q b' t') s).2 = _
        rw [setProg_other _ _ fun h => hbb h.1, (solo_agree (hph'.fits t' ht') (hsee t' ht')).2]
        exact hph'.next hl t' ht'
      · show (solo (setProg c.prog b t q b' t') s).1 a i = _
        rw [setProg_other _ _ fun h => hbb h.1, (solo_agree (hph'.fits t' ht') (hsee t' ht')).1 a i (.inl ho)]
        exact hph'.eff t' ht' a i ho
      · show s a i = _
        rw [hsame a i fun ho => hbb (h1 b hb (hreg a i ho)).symm]
        exact hph'.keep a i h1 h2

/-- A block leaves a barrier: its next phase begins. -/
theorem PGood.pass (hS : S.Describe G B c₀) (hg : PGood S G B c₀ c) {b t : Nat} (hb : b < G) (ht : t < B) {k : Prog α}
    (h : c.prog b t = .sync k) (hall : ∀ t' < B, (c.prog b t').Waits) :
    PGood S G B c₀ ⟨c.mem, passBlock c.prog b⟩ := by
  refine ⟨hg.len, hg.other, fun b' hb' => ?_⟩
  by_cases hbb : b' = b
  · subst hbb
    obtain ⟨ph, hph⟩ := hg.blk b' hb'
    have hlast : ph ≠ S.last b' := by
      have := hph.fits t ht
      rw [h] at this
      exact this
    have hlt : ph < S.last b' := lt_of_le_of_ne hph.le hlast
    have hsync : ∀ t' < B, ∃ k, c.prog b' t' = .sync k := by
      intro t' ht'
      have hw := hall t' ht'
      cases hp : c.prog b' t' with
      | sync k => exact ⟨k, rfl⟩
      | done =>
        have := hph.fits t' ht'
        rw [hp] at this
        exact (hlast this).elim
      | fault => rw [hp] at hw; exact hw.elim
      | rd a i k => rw [hp] at hw; exact hw.elim
      | wr a i x k => rw [hp] at hw; exact hw.elim
      | add a i x k => rw [hp] at hw; exact hw.elim
    have hprog : ∀ t' < B, (c.prog b' t').pass = S.prog b' (ph + 1) t' := by
      intro t' ht'
      obtain ⟨k, hk⟩ := hsync t' ht'
      have := hph.next hlt t' ht'
      rw [hk] at this ⊢
      exact this
    have hown : ∀ t' < B, ∀ a i, S.own b' ph t' a i → c.mem.val a i = S.val b' (ph + 1) a i := by
      intro t' ht' a i ho
      obtain ⟨k, hk⟩ := hsync t' ht'
      have := hph.eff t' ht' a i ho
      rw [hk] at this
      exact this
    have hval : ∀ a i, (∀ b'' < G, S.reg b'' a i → b'' = b') → c.mem.val a i = S.val b' (ph + 1) a i := by
      intro a i hr
      by_cases ho : ∃ t' < B, S.own b' ph t' a i
      · obtain ⟨t', ht', ho⟩ := ho
        exact hown t' ht' a i ho
      · push Not at ho
        rw [hS.keep b' hb ph hph.le a i ho]
        exact hph.keep a i hr ho
    have hle : ph + 1 ≤ S.last b' := hlt
    have hsee : ∀ t' < B, ∀ a i, S.own b' (ph + 1) t' a i ∨ S.ro b' (ph + 1) a i →
        c.mem.val a i = S.val b' (ph + 1) a i := by
      intro t' ht' a i ho
      refine hval a i fun b'' hb'' hr => ?_
      rcases ho with ho | ho
      · exact hS.reg_reg b' hb b'' hb'' a i (hS.own_reg b' hb (ph + 1) hle t' ht' a i ho) hr
      · exact hS.ro_reg b' hb (ph + 1) hle a i ho b'' hb'' hr
    have hpass : ∀ t', passBlock c.prog b' b' t' = (c.prog b' t').pass := fun t' => if_pos rfl
    refine ⟨ph + 1, hle, fun t' ht' => ?_, fun hl t' ht' => ?_, fun t' ht' a i ho => ?_, fun a i h1 h2 => ?_⟩
    · show InPhase _ _ _ _ (passBlock c.prog b' b' t')
      rw [hpass, hprog t' ht']
      exact hS.fits b' hb (ph + 1) hle t' ht'
    · show (solo (passBlock c.prog b' b' t') c.mem.val).2 = _
      rw [hpass, hprog t' ht', (solo_agree (hS.fits b' hb (ph + 1) hle t' ht') (hsee t' ht')).2]
      exact hS.next b' hb (ph + 1) hl t' ht'
    · show (solo (passBlock c.prog b' b' t') c.mem.val).1 a i = _
      rw [hpass, hprog t' ht', (solo_agree (hS.fits b' hb (ph + 1) hle t' ht') (hsee t' ht')).1 a i (.inl ho)]
      exact hS.eff b' hb (ph + 1) hle t' ht' a i ho
    · exact hval a i h1
  · obtain ⟨ph, hph⟩ := hg.blk b' hb'
    have hp : ∀ t', passBlock c.prog b b' t' = c.prog b' t' := fun t' => if_neg hbb
    refine ⟨ph, hph.le, fun t' ht' => ?_, fun hl t' ht' => ?_, fun t' ht' a i ho => ?_, hph.keep⟩
    · show InPhase _ _ _ _ (passBlock c.prog b b' t')
      rw [hp]
      exact hph.fits t' ht'
    · show (solo (passBlock c.prog b b' t') c.mem.val).2 = _
      rw [hp]
      exact hph.next hl t' ht'
    · show (solo (passBlock c.prog b b' t') c.mem.val).1 a i = _
      rw [hp]
      exact hph.eff t' ht' a i ho

theorem pgood_step [Add α] {c' : Cfg α} (hS : S.Describe G B c₀) (hg : PGood S G B c₀ c) (h : Step G B c c') :
    PGood S G B c₀ c' := by
  cases h with
  | @rd b t a i k hb ht h hi =>
    refine hg.move hS hb ht (fun own ro fin hp => ?_) (by rw [h]; rfl)
    rw [h] at hp
    exact ⟨hp.2.2 _, fun _ _ _ => rfl⟩
  | @wr b t a i x k hb ht h hi =>
    refine hg.move hS hb ht (fun own ro fin hp => ?_) (by rw [h]; rfl)
    rw [h] at hp
    exact ⟨hp.2.2, fun a' i' hno => upd_other _ _ fun hl => hno (hl.1 ▸ hl.2 ▸ hp.2.1)⟩
  | @add b t a i x k hb ht h hi =>
    obtain ⟨ph, hph⟩ := hg.blk b hb
    have := hph.fits t ht
    rw [h] at this
    exact this.elim
  | @sync b t k hb ht h hall => exact hg.pass hS hb ht h hall

theorem pgood_reach [Add α] (hS : S.Describe G B c₀) (h : Reach G B c₀ c) : PGood S G B c₀ c := by
  induction h with
  | start => exact pgood_start hS
  | step _ hs ih => exact pgood_step hS ih hs

theorem PGood.no_fault (hg : PGood S G B c₀ c) : ¬ Fault G B c := by
  rintro ⟨b, hb, t, ht, h | ⟨a, i, κ, hn, hi⟩⟩ <;> obtain ⟨ph, hph⟩ := hg.blk b hb <;> have hf := hph.fits t ht
  · rw [h] at hf
    exact hf
  · rw [hg.len] at hi
    cases hp : c.prog b t <;> rw [hp] at hf hn <;>
      simp only [Prog.next, Option.some.injEq, Prod.mk.injEq, reduceCtorEq] at hn
    · obtain ⟨rfl, rfl, -⟩ := hn
      exact hi hf.1
    · obtain ⟨rfl, rfl, -⟩ := hn
      exact hi hf.1
    · exact hf.elim

theorem PGood.no_race (hS : S.Describe G B c₀) (hg : PGood S G B c₀ c) : ¬ Race G B c := by
  rintro ⟨b, hb, t, ht, b', hb', t', ht', hne, a, i, κ, κ', hn, hn', hr, hw⟩
  have key : ∀ {b t ph : Nat} {κ : Kind}, b < G → t < B → InPh S G B c₀ c b ph →
      (c.prog b t).next = some (a, i, κ) →
      (κ = .read ∧ (S.own b ph t a i.toNat ∨ S.ro b ph a i.toNat)) ∨ (κ = .write ∧ S.own b ph t a i.toNat) := by
    intro b t ph κ hb ht hph hn
    have hf := hph.fits t ht
    cases hp : c.prog b t <;> rw [hp] at hf hn <;>
      simp only [Prog.next, Option.some.injEq, Prod.mk.injEq, reduceCtorEq] at hn
    · obtain ⟨rfl, rfl, rfl⟩ := hn
      exact .inl ⟨rfl, hf.2.1⟩
    · obtain ⟨rfl, rfl, rfl⟩ := hn
      exact .inr ⟨rfl, hf.2.1⟩
    · exact hf.elim
  obtain ⟨ph, hph⟩ := hg.blk b hb
  obtain ⟨ph', hph'⟩ := hg.blk b' hb'
  have own_see : ∀ {b t ph b' t' ph' : Nat}, b < G → t < B → b' < G → t' < B → (b, t) ≠ (b', t') → ph ≤ S.last b →
      ph' ≤ S.last b' → (b' = b → ph' = ph) → S.own b ph t a i.toNat → (S.own b' ph' t' a i.toNat ∨ S.ro b' ph' a i.toNat) →
      False := by
    intro b t ph b' t' ph' hb ht hb' ht' hne hl hl' he ho hs
    by_cases hbb : b' = b
    · subst hbb
      have := he rfl
      subst this
      rcases hs with hs | hs
      · exact hne (Prod.ext rfl (hS.own_own b' hb ph' hl t ht t' ht' a _ ho hs))
      · exact hS.own_ro b' hb ph' hl t ht a _ ho hs
    · have hreg := hS.own_reg b hb ph hl t ht a _ ho
      rcases hs with hs | hs
      · exact hbb (hS.reg_reg b hb b' hb' a _ hreg (hS.own_reg b' hb' ph' hl' t' ht' a _ hs))
      · exact hbb (hS.ro_reg b' hb' ph' hl' a _ hs b hb hreg).symm
  by_cases hbb : b' = b
  · subst hbb
    rcases key hb ht hph hn with ⟨h1, h⟩ | ⟨h1, h⟩ <;> rcases key hb ht' hph hn' with ⟨h2, h'⟩ | ⟨h2, h'⟩
    · exact hr ⟨h1, h2⟩
    · exact own_see hb ht' hb ht hne.symm hph.le hph.le (fun _ => rfl) h' h
    · exact own_see hb ht hb ht' hne hph.le hph.le (fun _ => rfl) h h'
    · exact own_see hb ht hb ht' hne hph.le hph.le (fun _ => rfl) h (.inl h')
  · rcases key hb ht hph hn with ⟨h1, h⟩ | ⟨h1, h⟩ <;> rcases key hb' ht' hph' hn' with ⟨h2, h'⟩ | ⟨h2, h'⟩
    · exact hr ⟨h1, h2⟩
    · exact own_see hb' ht' hb ht hne.symm hph'.le hph.le (fun e => (hbb e.symm).elim) h' h
    · exact own_see hb ht hb' ht' hne hph.le hph'.le (fun e => (hbb e).elim) h h'
    · exact own_see hb ht hb' ht' hne hph.le hph'.le (fun e => (hbb e).elim) h (.inl h')

/-- A launch described by phases runs on every schedule and ends with the contents after the last phase. -/
theorem runs_phases [Add α] (hS : S.Describe G B c₀) (hB : 0 < B) {Q : Vals α → Prop}
    (hQ : ∀ s : Vals α, (∀ b < G, ∀ a i, S.reg b a i → s a i = S.val b (S.last b + 1) a i) →
      (∀ a i, (∀ b < G, ¬ S.reg b a i) → s a i = c₀.mem.val a i) → Q s) :
    Runs G B c₀ Q where
  safe c h := ⟨(pgood_reach hS h).no_fault, (pgood_reach hS h).no_race hS⟩
  ends := no_infinite_run G B c₀
  progress c h := progress (pgood_reach hS h).no_fault
  result c h hfin := by
    have hg := pgood_reach hS h
    refine hQ _ (fun b hb a i hr => ?_) hg.other
    obtain ⟨ph, hph⟩ := hg.blk b hb
    have hl : ph = S.last b := by
      have := hph.fits 0 hB
      rw [hfin b hb 0 hB] at this
      exact this
    subst hl
    by_cases ho : ∃ t < B, S.own b (S.last b) t a i
    · obtain ⟨t, ht, ho⟩ := ho
      have := hph.eff t ht a i ho
      rw [hfin b hb t ht] at this
      exact this
    · push Not at ho
      rw [hS.keep b hb _ le_rfl a i ho]
      exact hph.keep a i (fun b' hb' hr' => hS.reg_reg b hb b' hb' a i hr hr') ho

end Verif.Gpu
