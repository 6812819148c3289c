import Verif.Gpu.Jobs

/-!
# Kernels without barriers whose threads write different entries
-/

namespace Verif.Gpu

variable {α : Type} {β σ : Type}

/-- The piece writes only `own`, reads only `own` and `ro`, stays within the arrays, and leaves `res s` in `own` if started
on `s`. -/
structure Piece (own ro : Arr → Nat → Prop) (len : Arr → Nat) (res : Vals α → Vals α) (m : K α Unit) : Prop where
  safe : SafeP own ro len m
  big : ∀ s, ∃ s', Big m s () s' ∧ (∀ a i, own a i → s' a i = res s a i) ∧ ∀ a i, ¬ own a i → s' a i = s a i

section
variable {own ro : Arr → Nat → Prop} {len : Arr → Nat} {res : Vals α → Vals α}

theorem piece_pure : Piece (fun _ _ => False) ro len res (pure () : K α Unit) :=
  ⟨safeP_pure (), fun s => ⟨s, big_pure () s, fun _ _ h => h.elim, fun _ _ _ => rfl⟩⟩

/-- A loop over pieces that do not interfere. -/
theorem piece_forIn {l : List β} {body : β → K α Unit} {o : β → Arr → Nat → Prop} (hd : l.Nodup)
    (hsafe : ∀ x ∈ l, SafeP (fun a i => ∃ x ∈ l, o x a i) ro len (body x))
    (hbig : ∀ x ∈ l, ∀ s, ∃ s', Big (body x) s () s' ∧ (∀ a i, o x a i → s' a i = res s a i) ∧
      ∀ a i, ¬ o x a i → s' a i = s a i)
    (hinj : ∀ x ∈ l, ∀ y ∈ l, ∀ a i, o x a i → o y a i → x = y)
    (hro : ∀ x ∈ l, ∀ a i, o x a i → ¬ ro a i)
    (hloc : ∀ x ∈ l, ∀ s s' : Vals α, (∀ a i, o x a i ∨ ro a i → s a i = s' a i) → ∀ a i, o x a i → res s a i = res s' a i) :
    Piece (fun a i => ∃ x ∈ l, o x a i) ro len res (forIn' l (fun x _ => body x) ()) := by
  refine ⟨safeP_forIn (fun x hx _ => hsafe x hx) (), fun s => ?_⟩
  clear hsafe
  induction l generalizing s with
  | nil => exact ⟨s, big_pure () s, fun a i ⟨x, hx, _⟩ => by simp at hx, fun _ _ _ => rfl⟩
  | cons x l ih =>
    obtain ⟨hn, hd'⟩ := List.nodup_cons.mp hd
    have hx := List.mem_cons_self (a := x) (l := l)
    have hl : ∀ y ∈ l, y ∈ x :: l := fun y hy => List.mem_cons_of_mem _ hy
    obtain ⟨s1, b1, o1, n1⟩ := hbig x hx s
    obtain ⟨s2, b2, o2, n2⟩ := ih hd' (fun y hy => hbig y (hl y hy))
      (fun y hy z hz => hinj y (hl y hy) z (hl z hz)) (fun y hy => hro y (hl y hy)) (fun y hy => hloc y (hl y hy)) s1
    refine ⟨s2, big_bind b1 b2, fun a i ⟨y, hy, ho⟩ => ?_, fun a i h => ?_⟩
    · by_cases hyl : ∃ z ∈ l, o z a i
      · obtain ⟨z, hz, hoz⟩ := hyl
        rw [o2 a i ⟨z, hz, hoz⟩]
        refine hloc z (hl z hz) s1 s (fun a' i' h' => n1 a' i' fun hox => ?_) a i hoz
        rcases h' with h' | h'
        · exact hn (hinj x hx z (hl z hz) a' i' hox h' ▸ hz)
        · exact hro x hx a' i' hox h'
      · rw [n2 a i hyl]
        rcases List.mem_cons.mp hy with rfl | hy
        · exact o1 a i ho
        · exact absurd ⟨y, hy, ho⟩ hyl
    · rw [n2 a i fun ⟨z, hz, ho⟩ => h ⟨z, hl z hz, ho⟩]
      exact n1 a i fun ho => h ⟨x, hx, ho⟩

theorem Piece.congr {own' : Arr → Nat → Prop} {m : K α Unit} (h : Piece own ro len res m) (he : ∀ a i, own a i ↔ own' a i) :
    Piece own' ro len res m := by
  have : own = own' := by
    funext a i
    exact propext (he a i)
  rwa [← this]

end

/-- A kernel whose threads are pieces that do not interfere runs on every schedule. -/
theorem runs_pieces [Add α] {G B : Nat} {m : Mem α} {kern : Nat → Nat → K α Unit} (hB : 0 < B)
    (own : Nat → Nat → Arr → Nat → Prop) (ro : Arr → Nat → Prop) (res : Vals α → Vals α)
    (hp : ∀ b < G, ∀ t < B, Piece (own b t) ro m.len res (kern b t))
    (hinj : ∀ b < G, ∀ t < B, ∀ b' < G, ∀ t' < B, ∀ a i, own b t a i → own b' t' a i → b = b' ∧ t = t')
    (hro : ∀ b < G, ∀ t < B, ∀ a i, own b t a i → ¬ ro a i)
    {Q : Vals α → Prop}
    (hQ : ∀ s : Vals α, (∀ b < G, ∀ t < B, ∀ a i, own b t a i → s a i = res m.val a i) →
      (∀ a i, (∀ b < G, ∀ t < B, ¬ own b t a i) → s a i = m.val a i) → Q s) :
    Runs G B (launch kern m) Q := by
  classical
  let S : Phases α := {
    last := fun _ => 0
    reg := fun b a i => ∃ t < B, own b t a i
    val := fun b ph => if ph = 0 then m.val else fun a i => if ∃ t < B, own b t a i then res m.val a i else m.val a i
    prog := fun b _ t => kern b t fun _ => .done
    own := fun b _ t => own b t
    ro := fun _ _ => ro }
  have hsolo : ∀ b < G, ∀ t < B, ∀ a i, own b t a i → (solo (kern b t fun _ => .done) m.val).1 a i = res m.val a i := by
    intro b hb t ht a i ho
    obtain ⟨s', h1, h2, -⟩ := (hp b hb t ht).big m.val
    rw [h1]
    exact h2 a i ho
  have hS : S.Describe G B (launch kern m) := by
    refine ⟨fun b hb t ht => rfl, fun b hb => rfl, fun b hb ph hph t ht => ?_, fun b hb ph hph t ht => absurd hph (Nat.not_lt_zero _),
      fun b hb ph hph t ht a i ho => ?_, fun b hb ph hph a i h => ?_, fun b hb ph hph t ht a i ho => ⟨t, ht, ho⟩,
      fun b hb ph hph t ht t' ht' a i ho ho' => (hinj b hb t ht b hb t' ht' a i ho ho').2,
      fun b hb ph hph t ht a i ho => hro b hb t ht a i ho, fun b hb ph hph a i hr b' hb' hreg => ?_,
      fun b hb b' hb' a i h h' => ?_⟩
    · have : ph = 0 := Nat.le_zero.mp hph
      subst this
      exact (hp b hb t ht).safe _ _ fun _ => rfl
    · have : ph = 0 := Nat.le_zero.mp hph
      subst this
      show (solo _ m.val).1 a i = ite _ _ _
      rw [hsolo b hb t ht a i ho, if_pos ⟨t, ht, ho⟩]
    · have : ph = 0 := Nat.le_zero.mp hph
      subst this
      show ite _ _ _ = m.val a i
      rw [if_neg]
      rintro ⟨t, ht, ho⟩
      exact h t ht ho
    · obtain ⟨t, ht, ho⟩ := hreg
      exact absurd hr (hro b' hb' t ht a i ho)
    · obtain ⟨t, ht, ho⟩ := h
      obtain ⟨t', ht', ho'⟩ := h'
      exact (hinj b hb t ht b' hb' t' ht' a i ho ho').1.symm
  refine runs_phases hS hB fun s h1 h2 => hQ s (fun b hb t ht a i ho => ?_) fun a i h => ?_
  · rw [h1 b hb a i ⟨t, ht, ho⟩]
    show ite _ _ _ = _
    rw [if_pos ⟨t, ht, ho⟩]
  · exact h2 a i fun b hb ⟨t, ht, ho⟩ => h b hb t ht ho

end Verif.Gpu
