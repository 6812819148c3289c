import Verif.DevVec.Calls4

/-!
# Vectors with arrays on the host and on the device: arrays that change hands
-/

set_option linter.unusedSectionVars false

namespace Verif
namespace DevVec

open Vector (Mem Mode NormType)
open M (wp)

variable {α : Type} [CommRing α] [DecidableEq α] {E : Env α}

/-- Arrays that `v` does not have stay as they are, but for the bookkeeping. -/
def Data (w w' : W α) (v : Nat) : Prop := ∀ a b, w.heap a = some b → ¬ HeldBy w v a → ∃ b', w'.heap a = some b' ∧ b'.mem = b.mem ∧ b'.buf = b.buf

theorem Data.refl (w : W α) (v : Nat) : Data w w v := fun _ b hb _ => ⟨b, hb, rfl, rfl⟩

theorem Data.of_grow {w w' : W α} (hi : Inv w) {v : Nat} (h : Grow w w' v) : Data w w' v := fun a b hb hn => ⟨b, by rw [h.heap a (hi.lt_next hb) hn]; exact hb, rfl, rfl⟩

theorem Data.trans {w w' w'' : W α} {v : Nat} (h : Data w w' v) (h' : Data w' w'' v) (hh : ∀ a b, w.heap a = some b → ¬ HeldBy w v a → ¬ HeldBy w' v a) : Data w w'' v :=
  fun a b hb hn => by
    obtain ⟨b', h1, h2, h3⟩ := h a b hb hn
    obtain ⟨b'', h4, h5, h6⟩ := h' a b' h1 (hh a b hb hn)
    exact ⟨b'', h4, h5.trans h2, h6.trans h3⟩

theorem Ext.trans {w w' w'' : W α} {v : Nat} (h : Ext w w' v) (h' : Ext w' w'' v) : Ext w w'' v :=
  ⟨fun u hu => (h'.vecs u hu).trans (h.vecs u hu), fun u a hu ha => (h'.heap u a hu ((h.heldBy_other hu).2 ha)).trans (h.heap u a hu ha),
    fun a ha u hu hc => h'.held a ha u hu ((h.heldBy_other hu).2 hc)⟩

theorem freeA_wp {w : W α} {m : Mem} {p : Option Nat} (hp : ∀ a, p = some a → ∃ b, w.heap a = some b ∧ b.mem = m) {R : W α → Err → Prop} {Q : W α → Unit → Prop}
    (h : ∀ w', w'.vecs = w.vecs → w'.next = w.next → (∀ c, p ≠ some c → w'.heap c = w.heap c) → (∀ c, p = some c → w'.heap c = none) → Q w' ()) : Wp (freeA m p) w Q R := by
  cases p with
  | none => exact wp_ok (w' := w) (r := ()) rfl (h w rfl rfl (fun _ _ => rfl) fun _ h => by cases h)
  | some a =>
    obtain ⟨b, hb, hbm⟩ := hp a rfl
    refine wp_ok (w' := w.setArr a none) (r := ()) ?_ (h _ rfl rfl (fun c hc => setArr_ne _ _ fun h => hc (by rw [h])) fun c hc => ?_)
    · unfold freeA
      simp only [hb, hbm, if_true]
    · cases hc
      exact setArr_same _ _ _

theorem adopt_wp {w : W α} {mode : Mode} {src : Option Nat} (hs : ∀ a, src = some a → ∃ b, w.heap a = some b) {R : W α → Err → Prop} {Q : W α → Unit → Prop}
    (h : ∀ w', w'.vecs = w.vecs → w'.next = w.next → (∀ c, src ≠ some c → w'.heap c = w.heap c) →
      (∀ c b, src = some c → w.heap c = some b → ∃ b', w'.heap c = some b' ∧ b'.mem = b.mem ∧ b'.buf = b.buf ∧ (mode = .ownPointer → b'.lib = true) ∧ (mode ≠ .ownPointer → b'.lib = b.lib)) → Q w' ()) :
    Wp (adopt mode src) w Q R := by
  by_cases hm : mode = .ownPointer
  · subst hm
    cases src with
    | none => exact wp_ok (w' := w) (r := ()) rfl (h w rfl rfl (fun _ _ => rfl) fun _ _ h => by cases h)
    | some a =>
      obtain ⟨b, hb⟩ := hs a rfl
      refine wp_ok (w' := w.setArr a (some { b with lib := true })) (r := ()) ?_ (h _ rfl rfl (fun c hc => setArr_ne _ _ fun h => hc (by rw [h])) fun c b' hc hb' => ?_)
      · unfold adopt
        simp only [hb]
      · cases hc
        rw [hb] at hb'
        cases hb'
        exact ⟨_, setArr_same _ _ _, rfl, rfl, fun _ => rfl, fun h => absurd rfl h⟩
  · refine wp_ok (w' := w) (r := ()) ?_ (h w rfl rfl (fun _ _ => rfl) fun c b _ hb => ⟨b, hb, rfl, rfl, fun h => absurd h hm, fun _ => rfl⟩)
    cases mode with
    | ownPointer => exact absurd rfl hm
    | usePointer => rfl
    | copyValues => rfl

/-- `CeedVectorSetArray` with `CEED_USE_POINTER` or `CEED_OWN_POINTER`. -/
theorem setPtr_wp {w : W α} (hi : Inv w) {v : Nat} {x : DVec} (hx : w.vecs v = some x) {m : Mem} {mode : Mode} (hm : mode ≠ .copyValues) {src : Option Nat}
    (hsrc : ∀ a, src = some a → ∃ b, w.heap a = some b ∧ b.mem = m ∧ x.len ≤ b.buf.len ∧ ∀ u, HeldBy w u a → u = v ∧ (x.side m).bor = some a) :
    Wp (setArray E v m mode src) w (fun w' _ => x.state % 2 = 0 ∧ x.readers = 0 ∧ Inv w' ∧ Ext w w' v ∧ Data w w' v ∧
        (∃ x', w'.vecs v = some x' ∧ x'.len = x.len ∧ ∀ m', m' ≠ m → (x'.side m').bor = (x.side m').bor) ∧
        ∀ a, 0 < x.len → src = some a → (∃ b, w.heap a = some b ∧ HasVals w' v b.buf.val) ∧ (mode = .usePointer → Lent w' v m a)) (fun w' _ => w' = w) := by
  have hV := hi.vec v x hx
  unfold setArray
  refine M.wp_bind.2 (wp_getV hx (M.wp_bind.2 (wp_lock (fun he hr => ?_) fun _ _ => rfl)))
  by_cases h0 : 0 < x.len
  swap
  · rw [if_neg h0]
    obtain ⟨h1, h2⟩ := hi.counts hx (st := x.state + 2) (rd := x.readers) (fun h => by omega) (fun h => by omega)
    exact wp_bump hx ⟨he, hr, h1, h2.ext hi, Data.of_grow hi h2, ⟨_, setVec_same _ _ _, rfl, fun _ _ => rfl⟩, fun a h => absurd h h0⟩
  rw [if_pos h0]
  unfold setArrayB
  refine M.wp_bind.2 (M.wp_bind.2 (wp_getV hx ?_))
  -- the pointers of the memory type
  set s' : Side := if mode = .ownPointer then ⟨src, none, src⟩ else ⟨src, src, none⟩ with hs'
  have hgen : setGeneric E m mode src x.len { x.side m with arr := none } = (do freeA m (x.side m).own; pure s') := by
    cases mode with
    | copyValues => exact absurd rfl hm
    | ownPointer => rw [hs', if_pos rfl]; rfl
    | usePointer => rw [hs', if_neg (by simp)]; rfl
  rw [hgen]
  have hown : ∀ a, (x.side m).own = some a → ∃ b, w.heap a = some b ∧ b.mem = m := fun a h => by
    obtain ⟨b, hb, hbm, -⟩ := hV.slot m a (hV.slot_of (.inl h))
    exact ⟨b, hb, hbm⟩
  refine M.wp_bind.2 (M.wp_bind.2 (freeA_wp hown fun w1 h1v h1n h1h h1f => ?_))
  refine M.wp_pure.2 ?_
  have hne : ∀ a, src = some a → (x.side m).own ≠ some a := fun a ha ho => by
    obtain ⟨b, -, -, -, h⟩ := hsrc a ha
    have hb := (h v ⟨x, m, hx, .inl ho⟩).2
    rcases hV.one m with h1 | h1
    · rw [h1] at hb; cases hb
    · rw [h1] at ho; cases ho
  refine M.wp_bind.2 (adopt_wp (fun a ha => ?_) fun w2 h2v h2n h2h h2f => ?_)
  · obtain ⟨b, hb, -⟩ := hsrc a ha
    exact ⟨b, by rw [h1h a (hne a ha)]; exact hb⟩
  refine wp_putV (wp_bump (setVec_same _ _ _) ?_)
  rw [setVec_setVec]
  set x' : DVec := { x with side := fun m' => if m' = m then s' else { x.side m' with arr := none }, state := x.state + 2 } with hx'
  show x.state % 2 = 0 ∧ x.readers = 0 ∧ Inv (w2.setVec v (some x')) ∧ Ext w (w2.setVec v (some x')) v ∧ Data w (w2.setVec v (some x')) v ∧ _
  have e1 : x'.side m = s' := if_pos rfl
  have e2 : ∀ m', m' ≠ m → x'.side m' = { x.side m' with arr := none } := fun m' h => if_neg h
  have hsa : s'.arr = src := by rw [hs']; split <;> rfl
  have hss : s'.slot = src := by
    rw [hs']
    unfold Side.slot
    split
    · rfl
    · cases src <;> rfl
  have hso : ∀ a, s'.own = some a → mode = .ownPointer ∧ src = some a := by
    intro a h
    rw [hs'] at h
    by_cases hmo : mode = .ownPointer
    · rw [if_pos hmo] at h; exact ⟨hmo, h⟩
    · rw [if_neg hmo] at h; cases h
  have hso' : ∀ a, mode = .ownPointer → src = some a → s'.own = some a := by
    intro a h h'
    rw [hs', if_pos h]; exact h'
  have hsb : ∀ a, s'.bor = some a → src = some a := by
    intro a h
    rw [hs'] at h
    by_cases hmo : mode = .ownPointer
    · rw [if_pos hmo] at h; cases h
    · rw [if_neg hmo] at h; exact h
  -- the heap
  have hp1 : ∀ c, src ≠ some c → (x.side m).own ≠ some c → w2.heap c = w.heap c := fun c h h' => (h2h c h).trans (h1h c h')
  have hp2 : ∀ c, (x.side m).own = some c → w2.heap c = none := fun c h => (h2h c fun h' => hne c h' h).trans (h1f c h)
  have hp3 : ∀ a b, src = some a → w.heap a = some b → ∃ b', w2.heap a = some b' ∧ b'.mem = b.mem ∧ b'.buf = b.buf ∧ (mode = .ownPointer → b'.lib = true) ∧
      (mode ≠ .ownPointer → b'.lib = b.lib) := fun a b ha hb => h2f a b ha (by rw [h1h a (hne a ha)]; exact hb)
  have hvec : (w2.setVec v (some x')).vecs v = some x' := setVec_same _ _ _
  have hext : Ext w (w2.setVec v (some x')) v := by
    refine ⟨fun u hu => ?_, fun u c hu hc => ?_, fun c hc u hu hcu => ?_⟩
    · rw [setVec_ne _ _ hu, h2v, h1v]
    · rw [setVec_heap]
      refine hp1 c (fun h => ?_) fun h => ?_
      · obtain ⟨b, -, -, -, h'⟩ := hsrc c h
        exact hu (h' u hc).1
      · exact hu (hi.excl u v c hc ⟨x, m, hx, .inl h⟩)
    · obtain ⟨y, m', hy, ho⟩ := hc
      rw [hvec] at hy
      cases hy
      by_cases hmm : m' = m
      · subst hmm
        rw [e1] at ho
        have hsc : src = some c := ho.elim (fun h => (hso c h).2) (hsb c)
        obtain ⟨b, -, -, -, h'⟩ := hsrc c hsc
        exact hu (h' u hcu).1
      · rw [e2 m' hmm] at ho
        exact hu (hi.excl u v c hcu ⟨x, m', hx, ho⟩)
  -- arrays of the other memory type
  have hoth : ∀ m' c, m' ≠ m → (x.side m').slot = some c → w2.heap c = w.heap c := by
    intro m' c hmm hc
    obtain ⟨b, hb, hbm, -⟩ := hV.slot m' c hc
    refine hp1 c (fun h => ?_) fun h => ?_
    · obtain ⟨b', hb', hbm', -⟩ := hsrc c h
      rw [hb] at hb'
      cases hb'
      exact hmm (hbm.symm.trans hbm')
    · obtain ⟨b', hb', hbm'⟩ := hown c h
      rw [hb] at hb'
      cases hb'
      exact hmm (hbm.symm.trans hbm')
  -- the array was not the library's
  have hlibF : ∀ a b, src = some a → w.heap a = some b → b.lib = false := by
    intro a b ha hb
    by_contra hl
    obtain ⟨u, y, m', hy, ho⟩ := hi.lib a b hb (by simpa using hl)
    obtain ⟨b2, hb2, hbm, -, h'⟩ := hsrc a ha
    obtain ⟨rfl, hbor⟩ := h' u ⟨y, m', hy, .inl ho⟩
    rw [hx] at hy
    cases hy
    have hmm : m' = m := by
      obtain ⟨b3, hb3, hbm3, -⟩ := hV.slot m' a (hV.slot_of (.inl ho))
      rw [hb2] at hb3
      cases hb3
      exact hbm3.symm.trans hbm
    subst hmm
    exact hne a ha ho
  have hval : ∀ f, (∀ a, src = some a → ∃ b, w.heap a = some b ∧ ∀ i < x.len, b.buf.val i = f i) → Val (w2.setVec v (some x')) x' f := by
    intro f hf m' c hc
    by_cases hmm : m' = m
    · subst hmm
      rw [e1, hsa] at hc
      obtain ⟨b, hb, h⟩ := hf c hc
      obtain ⟨b', hb', -, h2, -⟩ := hp3 c b hc hb
      exact ⟨b', hb', fun i hi' => by rw [h2]; exact h i hi'⟩
    · rw [e2 m' hmm] at hc
      cases hc
  have hcoh : ∃ f, Val (w2.setVec v (some x')) x' f := by
    cases hsr : src with
    | none => exact ⟨fun _ => 0, hval _ fun a h => by rw [hsr] at h; cases h⟩
    | some a =>
      obtain ⟨b, hb, -⟩ := hsrc a hsr
      exact ⟨b.buf.val, hval _ fun c h => by rw [hsr] at h; cases h; exact ⟨b, hb, fun _ _ => rfl⟩⟩
  have hVI : VInv (w2.setVec v (some x')) x' := by
    refine ⟨fun m' c hc => ?_, fun m' => ?_, fun m' c hc => ?_, hcoh, fun ho => ?_, fun h => ?_, fun h => ?_⟩
    · by_cases hmm : m' = m
      · subst hmm
        rw [e1] at hc ⊢
        rw [hss] at hc
        obtain ⟨b, hb, hbm, hbl, -⟩ := hsrc c hc
        obtain ⟨b', hb', h2, h3, h4, h5⟩ := hp3 c b hc hb
        refine ⟨b', hb', h2.trans hbm, by rw [h3]; exact hbl, ?_⟩
        by_cases hmo : mode = .ownPointer
        · exact ⟨fun _ => hso' c hmo hc, fun _ => h4 hmo⟩
        · rw [h5 hmo, hlibF c b hc hb]
          exact ⟨fun h => (Bool.false_ne_true h).elim, fun h => absurd (hso c h).1 hmo⟩
      · rw [e2 m' hmm] at hc ⊢
        have hc' : (x.side m').slot = some c := hc
        obtain ⟨b, hb, h⟩ := hV.slot m' c hc'
        exact ⟨b, by rw [setVec_heap, hoth m' c hmm hc']; exact hb, h⟩
    · by_cases hmm : m' = m
      · subst hmm
        rw [e1, hs']
        split
        · exact .inl rfl
        · exact .inr rfl
      · rw [e2 m' hmm]; exact hV.one m'
    · by_cases hmm : m' = m
      · subst hmm
        rw [e1] at hc ⊢
        rw [hss, ← hsa]; exact hc
      · rw [e2 m' hmm] at hc; cases hc
    · have : (x.state + 2) % 2 = 1 := ho
      omega
    · have : 0 < x.readers := h
      omega
    · have : x.len = 0 := h
      omega
  have hinv : Inv (w2.setVec v (some x')) := by
    refine hi.ext hext (fun y hy => ?_) (fun c hc => ?_) (fun c b hb hl h => ?_)
    · rw [hvec] at hy
      cases hy
      exact hVI
    · have hc' : w.next ≤ c := by
        rw [setVec_next, h2n, h1n] at hc
        exact hc
      rw [setVec_heap, hp1 c (fun h => ?_) fun h => ?_]
      · exact hi.top c hc'
      · obtain ⟨b, hb, -⟩ := hsrc c h
        have := hi.lt_next hb
        omega
      · obtain ⟨b, hb, -⟩ := hown c h
        have := hi.lt_next hb
        omega
    · rw [setVec_heap] at hb h
      by_cases hsc : src = some c
      · obtain ⟨b0, hb0, -⟩ := hsrc c hsc
        obtain ⟨b', hb', -, -, -, h5⟩ := hp3 c b0 hsc hb0
        rw [hb] at hb'
        cases hb'
        by_cases hmo : mode = .ownPointer
        · exact ⟨x', m, hvec, by rw [e1]; exact hso' c hmo hsc⟩
        · rw [h5 hmo, hlibF c b0 hsc hb0] at hl
          cases hl
      · have hoc : (x.side m).own ≠ some c := fun h' => by rw [hp2 c h'] at hb; cases hb
        have hheap := hp1 c hsc hoc
        rw [hheap] at hb h
        have hv : HeldBy w v c := by
          rcases h with h | h | h
          · rw [hi.top c h] at hb; cases hb
          · exact h
          · exact absurd rfl h
        obtain ⟨u, y, m', hy, ho⟩ := hi.lib c b hb hl
        have : u = v := hi.excl u v c ⟨y, m', hy, .inl ho⟩ hv
        subst this
        rw [hx] at hy
        cases hy
        have hmm : m' ≠ m := fun h' => hoc (h' ▸ ho)
        exact ⟨x', m', hvec, by rw [e2 m' hmm]; exact ho⟩
  refine ⟨he, hr, hinv, hext, fun c b hb hn => ?_, ⟨x', hvec, rfl, fun m' hmm => by rw [e2 m' hmm]⟩, fun a _ ha => ?_⟩
  · rw [setVec_heap]
    by_cases hsc : src = some c
    · obtain ⟨b', h1, h2, h3, -⟩ := hp3 c b hsc hb
      exact ⟨b', h1, h2, h3⟩
    · exact ⟨b, by rw [hp1 c hsc fun h => hn ⟨x, m, hx, .inl h⟩]; exact hb, rfl, rfl⟩
  · obtain ⟨b, hb, hbm, hbl, -⟩ := hsrc a ha
    refine ⟨⟨b, hb, (hinv.hasVals_iff hvec).2 ⟨⟨m, by rw [e1, hsa, ha]; simp⟩, hval _ fun c hc => ?_⟩⟩, fun hmo => ⟨x', hvec, ?_⟩⟩
    · rw [ha] at hc
      cases hc
      exact ⟨b, hb, fun _ _ => rfl⟩
    · rw [e1, hs', if_neg (by rw [hmo]; simp)]; exact ha

/-- `CeedVectorTakeArray`. -/
theorem takeArray_wp {w : W α} (hi : Inv w) {v : Nat} {x : DVec} (hx : w.vecs v = some x) {m : Mem} :
    Wp (takeArray E v m) w (fun w' p => x.state % 2 = 0 ∧ x.readers = 0 ∧ Inv w' ∧ Ext w w' v ∧ Data w w' v ∧
        (∃ x', w'.vecs v = some x' ∧ x'.len = x.len ∧ (x'.side m).bor = none ∧ ∀ m', m' ≠ m → (x'.side m').bor = (x.side m').bor) ∧
        (∀ f, HasVals w v f → HasVals w' v f ∨ NoVals w' v) ∧
        (0 < x.len → ∃ a, p = some a ∧ (x.side m).bor = some a ∧ ¬ Held w' a ∧ (∃ f, HasVals w v f) ∧
          ∀ f, HasVals w v f → ∃ b, w'.heap a = some b ∧ b.mem = m ∧ x.len ≤ b.buf.len ∧ ∀ i < x.len, b.buf.val i = f i))
      (fun w' _ => w' = w) := by
  have hV := hi.vec v x hx
  unfold takeArray
  refine M.wp_bind.2 (wp_getV hx (M.wp_bind.2 (wp_lock (fun he hr => ?_) fun _ _ => rfl)))
  by_cases h0 : 0 < x.len
  swap
  · rw [if_neg h0]
    have hemp := hV.empty (by omega)
    exact M.wp_pure.2 ⟨he, hr, hi, Ext.refl w hi v, Data.refl w v, ⟨x, hx, rfl, by rw [hemp m], fun _ _ => rfl⟩, fun f hf => .inl hf, fun h => absurd h h0⟩
  rw [if_pos h0]
  refine M.wp_bind.2 (M.wp_check (fun hb => M.wp_bind.2 (M.wp_check (fun hv => ?_) fun _ => rfl)) fun _ => rfl)
  rw [validB_iff h0] at hv
  obtain ⟨a, ha⟩ := Option.isSome_iff_exists.1 hb
  unfold takeArrayB
  refine M.wp_bind.2 (M.wp_mono (syncArray_wp hi hx) (fun w1 _ h1 => ?_) fun w' _ h => h.1)
  obtain ⟨-, x1, h1⟩ := h1
  refine M.wp_bind.2 (wp_getV h1.vec (M.wp_bind.2 (wp_putV (M.wp_pure.2 ?_))))
  have hV1 := h1.inv.vec v x1 h1.vec
  have hb1 : (x1.side m).bor = some a := (h1.bor m).trans ha
  have hs1 : (x1.side m).slot = some a := hV1.slot_of (.inr hb1)
  have ho1 : (x1.side m).own = none := (hV1.one m).resolve_left (by rw [hb1]; simp)
  have ha1 : (x1.side m).arr = some a := by
    obtain ⟨c, hc⟩ := Option.ne_none_iff_exists'.1 (h1.arr hv)
    rw [hc, ← hV1.arr m c hc, hs1]
  set x' : DVec := x1.setSide m { x1.side m with bor := none, arr := none } with hx'
  have e1 : x'.side m = { x1.side m with bor := none, arr := none } := setSide_same _ _ _
  have e2 : ∀ m', m' ≠ m → x'.side m' = x1.side m' := fun m' h => setSide_ne _ _ h
  have hvec : (w1.setVec v (some x')).vecs v = some x' := setVec_same _ _ _
  have hsub : ∀ m' c, ((x'.side m').own = some c ∨ (x'.side m').bor = some c) → m' ≠ m ∧ ((x1.side m').own = some c ∨ (x1.side m').bor = some c) := by
    intro m' c h
    by_cases hmm : m' = m
    · subst hmm
      rw [e1] at h
      dsimp only at h
      rw [ho1] at h
      rcases h with h | h <;> cases h
    · rw [e2 m' hmm] at h
      exact ⟨hmm, h⟩
  have hheld : ∀ c, HeldBy (w1.setVec v (some x')) v c → HeldBy w1 v c := by
    rintro c ⟨y, m', hy, h⟩
    rw [hvec] at hy
    cases hy
    exact ⟨x1, m', h1.vec, (hsub m' c h).2⟩
  have hext : Ext w1 (w1.setVec v (some x')) v :=
    ⟨fun u hu => setVec_ne _ _ hu, fun _ _ _ _ => rfl, fun c hc u hu hcu => hu (h1.inv.excl u v c hcu (hheld c hc))⟩
  have hval : ∀ f, Val w1 x1 f → Val (w1.setVec v (some x')) x' f := by
    intro f hf m' c hc
    by_cases hmm : m' = m
    · subst hmm; rw [e1] at hc; cases hc
    · rw [e2 m' hmm] at hc
      exact hf m' c hc
  have hslot : (x'.side m).slot = none := by
    rw [e1]
    unfold Side.slot
    dsimp only
    rw [ho1]; rfl
  have hVI : VInv (w1.setVec v (some x')) x' := by
    refine ⟨fun m' c hc => ?_, fun m' => ?_, fun m' c hc => ?_, hV1.coh.imp hval, fun ho m' hm' => ?_, fun h => ?_, fun h => ?_⟩
    · have hmm : m' ≠ m := by rintro rfl; rw [hslot] at hc; cases hc
      rw [e2 m' hmm] at hc ⊢
      exact hV1.slot m' c hc
    · by_cases hmm : m' = m
      · subst hmm; rw [e1]; exact .inl rfl
      · rw [e2 m' hmm]; exact hV1.one m'
    · have hmm : m' ≠ m := by rintro rfl; rw [e1] at hc; cases hc
      rw [e2 m' hmm] at hc ⊢
      exact hV1.arr m' c hc
    · have : x1.state % 2 = 1 := ho
      rw [h1.state] at this
      omega
    · have : 0 < x1.readers := h
      rw [h1.readers] at this
      omega
    · have : x1.len = 0 := h
      rw [h1.len] at this
      omega
  have hinv : Inv (w1.setVec v (some x')) := by
    refine h1.inv.ext hext (fun y hy => ?_) h1.inv.top fun c b hb hl hh => ?_
    · rw [hvec] at hy
      cases hy
      exact hVI
    · have hn : c < w1.next := h1.inv.lt_next hb
      have hv' : HeldBy w1 v c := by
        rcases hh with h | h | h
        · omega
        · exact h
        · exact absurd rfl h
      obtain ⟨u, y, m', hy, ho⟩ := h1.inv.lib c b hb hl
      have : u = v := h1.inv.excl u v c ⟨y, m', hy, .inl ho⟩ hv'
      subst this
      rw [h1.vec] at hy
      cases hy
      have hmm : m' ≠ m := by rintro rfl; rw [ho1] at ho; cases ho
      exact ⟨x', m', hvec, by rw [e2 m' hmm]; exact ho⟩
  have hexa : Ext w (w1.setVec v (some x')) v := (h1.grow.ext hi).trans hext
  have hlen' : x'.len = x.len := h1.len
  refine ⟨he, hr, hinv, hexa, Data.of_grow hi ?_, ⟨x', hvec, hlen', by rw [e1], fun m' hmm => by rw [e2 m' hmm]; exact h1.bor m'⟩,
    fun f hf => ?_, fun _ => ⟨a, hb1, ha, ?_, ?_, fun f hf => ?_⟩⟩
  · refine ⟨hexa.vecs, fun c hc hn => h1.grow.heap c hc hn, h1.grow.next, fun c hc => h1.grow.held c (hheld c hc)⟩
  · rw [hi.hasVals_iff hx] at hf
    by_cases hv' : Valid x'
    · exact .inl ((hinv.hasVals_iff hvec).2 ⟨hv', hval f (h1.val f hf.2)⟩)
    · exact .inr ((noVals_iff hvec).2 hv')
  · rintro ⟨u, hu⟩
    by_cases huv : u = v
    · subst huv
      obtain ⟨y, m', hy, h⟩ := hu
      rw [hvec] at hy
      cases hy
      obtain ⟨hmm, h⟩ := hsub m' a h
      obtain ⟨b, hb, hbm, -⟩ := hV1.slot m' a (hV1.slot_of h)
      obtain ⟨b', hb', hbm', -⟩ := hV1.slot m a hs1
      rw [hb] at hb'
      cases hb'
      exact hmm (hbm.symm.trans hbm')
    · have := (hext.heldBy_other huv).1 hu
      exact huv (h1.inv.excl u v a this ⟨x1, m, h1.vec, .inr hb1⟩)
  · obtain ⟨f, hf⟩ := hV.coh
    exact ⟨f, (hi.hasVals_iff hx).2 ⟨hv, hf⟩⟩
  · rw [hi.hasVals_iff hx] at hf
    obtain ⟨b, hb, hbm, hbl, -⟩ := hV1.slot m a hs1
    obtain ⟨b', hb', h⟩ := h1.val f hf.2 m a ha1
    rw [hb] at hb'
    cases hb'
    rw [h1.len] at hbl h
    exact ⟨b, hb, hbm, hbl, h⟩

/-- `CeedVectorDestroy`. -/
theorem destroy_wp {w : W α} (hi : Inv w) {v : Nat} {x : DVec} (hx : w.vecs v = some x) :
    Wp (destroy v) w (fun w' _ => x.state % 2 = 0 ∧ x.readers = 0 ∧ Inv w' ∧ Ext w w' v ∧ Data w w' v ∧ w'.vecs v = none) (fun w' _ => w' = w) := by
  have hV := hi.vec v x hx
  unfold destroy
  refine M.wp_bind.2 (wp_getV hx (M.wp_bind.2 (wp_lock (fun he hr => ?_) fun _ _ => rfl)))
  have hown : ∀ m a, (x.side m).own = some a → ∃ b, w.heap a = some b ∧ b.mem = m := fun m a h => by
    obtain ⟨b, hb, hbm, -⟩ := hV.slot m a (hV.slot_of (.inl h))
    exact ⟨b, hb, hbm⟩
  refine M.wp_bind.2 (freeA_wp (hown .device) fun w1 h1v h1n h1h h1f => M.wp_bind.2 (freeA_wp (fun a ha => ?_) fun w2 h2v h2n h2h h2f => ?_))
  · obtain ⟨b, hb, hbm⟩ := hown .host a ha
    have hne : (x.side .device).own ≠ some a := fun h => by
      obtain ⟨b', hb', hbm'⟩ := hown .device a h
      rw [hb] at hb'
      cases hb'
      rw [hbm] at hbm'
      cases hbm'
    exact ⟨b, by rw [h1h a hne]; exact hb, hbm⟩
  have hp1 : ∀ c, (∀ m, (x.side m).own ≠ some c) → w2.heap c = w.heap c := fun c h => (h2h c (h .host)).trans (h1h c (h .device))
  have hp2 : ∀ m c, (x.side m).own = some c → w2.heap c = none := fun m c h => by
    cases m with
    | host => exact h2f c h
    | device =>
      rw [h2h c fun h' => ?_]
      · exact h1f c h
      · obtain ⟨b, hb, hbm⟩ := hown .host c h'
        obtain ⟨b', hb', hbm'⟩ := hown .device c h
        rw [hb] at hb'
        cases hb'
        rw [hbm] at hbm'
        cases hbm'
  have hvec : (w2.setVec v none).vecs v = none := setVec_same _ _ _
  have hext : Ext w (w2.setVec v none) v := by
    refine ⟨fun u hu => by rw [setVec_ne _ _ hu, h2v, h1v], fun u c hu hc => hp1 c fun m h => hu (hi.excl u v c hc ⟨x, m, hx, .inl h⟩), ?_⟩
    rintro c ⟨y, m, hy, -⟩
    rw [hvec] at hy
    cases hy
  refine wp_ok rfl ⟨he, hr, hi.ext hext (fun y hy => by rw [hvec] at hy; cases hy) (fun c hc => ?_) (fun c b hb hl h => ?_), hext, fun c b hb hn => ?_, hvec⟩
  · have hc' : w.next ≤ c := by
      rw [setVec_next, h2n, h1n] at hc
      exact hc
    rw [setVec_heap, hp1 c fun m h => ?_]
    · exact hi.top c hc'
    · obtain ⟨b, hb, -⟩ := hown m c h
      have := hi.lt_next hb
      omega
  · exfalso
    rw [setVec_heap] at hb h
    have hno : ∀ m, (x.side m).own ≠ some c := fun m h' => by rw [hp2 m c h'] at hb; cases hb
    rw [hp1 c hno] at hb h
    have hv : HeldBy w v c := by
      rcases h with h | h | h
      · rw [hi.top c h] at hb; cases hb
      · exact h
      · exact absurd rfl h
    obtain ⟨u, y, m', hy, ho⟩ := hi.lib c b hb hl
    have : u = v := hi.excl u v c ⟨y, m', hy, .inl ho⟩ hv
    subst this
    rw [hx] at hy
    cases hy
    exact hno m' ho
  · exact ⟨b, by rw [setVec_heap, hp1 c fun m h => hn ⟨x, m, hx, .inl h⟩]; exact hb, rfl, rfl⟩

/-- `CeedVectorCreate`. -/
theorem create_wp {w : W α} (hi : Inv w) {v : Nat} (hx : w.vecs v = none) {n : Nat} {R : W α → Err → Prop} :
    Wp (create v n) w (fun w' _ => Inv w' ∧ Ext w w' v ∧ Data w w' v ∧ NoVals w' v ∧ Len w' v n) R := by
  have hvec : (w.setVec v (some ⟨n, 0, 0, fun _ => ⟨none, none, none⟩⟩)).vecs v = some ⟨n, 0, 0, fun _ => ⟨none, none, none⟩⟩ := setVec_same _ _ _
  have hext : Ext w (w.setVec v (some ⟨n, 0, 0, fun _ => ⟨none, none, none⟩⟩)) v := by
    refine ⟨fun u hu => setVec_ne _ _ hu, fun _ _ _ _ => rfl, ?_⟩
    rintro c ⟨y, m, hy, h⟩
    rw [hvec] at hy
    cases hy
    rcases h with h | h <;> cases h
  refine wp_ok rfl ⟨hi.ext hext (fun y hy => ?_) hi.top fun c b hb _ h => ?_, hext, fun c b hb _ => ⟨b, hb, rfl, rfl⟩, ⟨_, hvec, fun _ => rfl⟩, ⟨_, hvec, rfl⟩⟩
  · rw [hvec] at hy
    cases hy
    refine ⟨fun m c hc => ?_, fun _ => .inl rfl, fun m c hc => ?_, ⟨fun _ => 0, fun m c hc => ?_⟩, fun h => ?_, fun h => ?_, fun _ _ => rfl⟩
    · cases hc
    · cases hc
    · cases hc
    · cases h
    · exact absurd h (Nat.lt_irrefl 0)
  · exfalso
    rcases h with h | h | h
    · rw [setVec_heap, hi.top c h] at hb; cases hb
    · obtain ⟨y, m, hy, -⟩ := h
      rw [hx] at hy
      cases hy
    · exact h rfl

/-- Changes of arrays that no vector has. -/
theorem Inv.outside {w w' : W α} (hi : Inv w) (hv : w'.vecs = w.vecs) (hh : ∀ a, Held w a → w'.heap a = w.heap a) (htop : ∀ a, w'.next ≤ a → w'.heap a = none)
    (hlib : ∀ a b, ¬ Held w a → w'.heap a = some b → b.lib = false) : Inv w' := by
  refine ⟨fun u x hx => ?_, fun u t a hu ht => ?_, htop, fun a b hb hl => ?_⟩
  · rw [hv] at hx
    exact (hi.vec u x hx).congr fun m a ha => hh a ⟨u, heldBy_slot hx ha⟩
  · obtain ⟨x, m, h1, h2⟩ := hu
    obtain ⟨y, m', h3, h4⟩ := ht
    rw [hv] at h1 h3
    exact hi.excl u t a ⟨x, m, h1, h2⟩ ⟨y, m', h3, h4⟩
  · by_cases h : Held w a
    · rw [hh a h] at hb
      rw [hv]
      exact hi.lib a b hb hl
    · rw [hlib a b h hb] at hl
      cases hl

/-- No vector notices changes of arrays that no vector has. -/
theorem Inv.outside_rel {w w' : W α} (hi : Inv w) (hv : w'.vecs = w.vecs) (hh : ∀ a, Held w a → w'.heap a = w.heap a) (u : Nat) :
    Keeps w w' u ∧ Writes w w' u ∧ Reads w w' u ∧ Kept w w' u := by
  have hk : ∀ f, HasVals w u f → HasVals w' u f := by
    rintro f ⟨x, h1, h2, h3⟩
    refine ⟨x, by rw [hv]; exact h1, h2, fun m a ha => ?_⟩
    rw [hh a ⟨u, heldBy_slot h1 ((hi.vec u x h1).arr m a ha)⟩]
    exact h3 m a ha
  refine ⟨⟨hk, ?_⟩, fun x m a hx _ ha => ⟨x, by rw [hv]; exact hx, rfl, ha⟩, fun x m a f hx _ ha hc hf => ⟨x, by rw [hv]; exact hx, le_refl _, rfl, ha, ?_, hk f hf⟩,
    fun x hx => ⟨x, by rw [hv]; exact hx, rfl, fun _ => rfl⟩⟩
  · rintro ⟨x, h1, h2⟩
    exact ⟨x, by rw [hv]; exact h1, h2⟩
  · unfold Contains
    rw [hh a ⟨u, heldBy_slot hx ha⟩]
    exact hc

theorem Inv.not_lib {w : W α} (hi : Inv w) {a : Nat} {b : Blk α} (hn : ¬ Held w a) (hb : w.heap a = some b) : b.lib = false := by
  by_contra h
  obtain ⟨u, y, m, hy, ho⟩ := hi.lib a b hb (by simpa using h)
  exact hn ⟨u, y, m, hy, .inl ho⟩

end DevVec
end Verif
