import Verif.Ceed.JitPaths

/-!
# C82: JiT source roots and defines
-/

namespace Verif
namespace JitPaths

variable {w w' : W} {c t : Nat} {k : Kind}

theorem isTop_topF {cd : Nat → Cd} (ho : Ordered cd) (h : IsTop cd c t) : ∀ k, c ≤ k → topF k cd c = t := by
  induction h with
  | here hn =>
    intro k _
    cases k with
    | zero => rfl
    | succ k => simp [topF, hn]
  | @step c p t hp _ ih =>
    intro k hk
    have := ho _ _ hp
    cases k with
    | zero => omega
    | succ k => simp only [topF, hp]; exact ih k (by omega)

theorem W_ext {a b : W} (h1 : ∀ x, a.cd x = b.cd x) (h2 : a.next = b.next) : a = b := by
  obtain ⟨x, y⟩ := a
  obtain ⟨x', y'⟩ := b
  simp only at h1 h2
  rw [h2, funext h1]

@[simp] theorem upd_same (w : W) (c : Nat) (g : Cd → Cd) : (w.upd c g).cd c = g (w.cd c) := by simp [W.upd]
theorem upd_ne (w : W) {c x : Nat} (g : Cd → Cd) (h : x ≠ c) : (w.upd c g).cd x = w.cd x := by simp [W.upd, h]
theorem upd_upd (w : W) (c : Nat) (g h : Cd → Cd) : (w.upd c g).upd c h = w.upd c (fun d => h (g d)) := by
  refine W_ext (fun x => ?_) rfl
  by_cases hx : x = c
  · subst hx; simp
  · simp [upd_ne _ _ hx]
theorem upd_congr (w : W) (c : Nat) {g h : Cd → Cd} (e : g (w.cd c) = h (w.cd c)) : w.upd c g = w.upd c h := by
  refine W_ext (fun x => ?_) rfl
  by_cases hx : x = c
  · subst hx; simpa using e
  · simp [upd_ne _ _ hx]
theorem upd_id (w : W) (c : Nat) {g : Cd → Cd} (e : g (w.cd c) = w.cd c) : w.upd c g = w := by
  refine W_ext (fun x => ?_) rfl
  by_cases hx : x = c
  · subst hx; simpa using e
  · simp [upd_ne _ _ hx]

theorem look_ok (h : (w.cd c).alive = true) : look c w = .ok w (w.cd c) := by simp [look, h]

theorem getParent_ok (h : Usable w c t) : getParent c w = .ok (w.upd t fun d => { d with ref := d.ref + 1 }) t := by
  obtain ⟨ho, ht, hc, hta, -⟩ := h
  unfold getParent
  rw [isTop_topF ho ht c le_rfl]
  simp only [M.bind_apply, look_ok hc, look_ok hta, Out.bind_ok, upd, M.pure_apply]

theorem destroy_ok (ha : (w.cd t).alive = true) (hr : 1 < (w.cd t).ref) :
    destroy t w = .ok (w.upd t fun d => { d with ref := d.ref - 1 }) () := by
  unfold destroy
  simp only [M.bind_apply, look_ok ha, Out.bind_ok, upd]
  rw [if_pos (by omega)]
  rfl

/-- What each of the three functions does to the `Ceed` at the top: `getParent`, a change that leaves the rest of the
record, `destroy`. -/
theorem around {g : Cd → Cd} (h : Usable w c t) (ha : ∀ d, (g d).alive = d.alive) (hr : ∀ d, (g d).ref = d.ref)
    (hg : ∀ d : Cd, ∀ r : Int, g { d with ref := r } = { g d with ref := r }) :
    ((w.upd t fun d => { d with ref := d.ref + 1 }).upd t g).upd t (fun d => { d with ref := d.ref - 1 }) = w.upd t g ∧
    destroy t ((w.upd t fun d => { d with ref := d.ref + 1 }).upd t g) = .ok (w.upd t g) () := by
  obtain ⟨-, -, -, hta, href⟩ := h
  have e : ((w.upd t fun d => { d with ref := d.ref + 1 }).upd t g).upd t (fun d => { d with ref := d.ref - 1 }) = w.upd t g := by
    rw [upd_upd, upd_upd]
    apply upd_congr
    have := hr (w.cd t)
    rw [hg]
    simp only
    rw [show (w.cd t).ref + 1 - 1 = (g (w.cd t)).ref by rw [this]; omega]
  refine ⟨e, ?_⟩
  rw [destroy_ok, e]
  · rw [upd_same, upd_same, ha]; exact hta
  · rw [upd_same, upd_same, hr]; simp only; omega

@[simp] theorem jl_setJl (d : Cd) (k k' : Kind) (l : JL) : (d.setJl k l).jl k' = if k' = k then l else d.jl k' := by
  cases k <;> cases k' <;> simp [Cd.setJl, Cd.jl]
@[simp] theorem setJl_alive (d : Cd) (k : Kind) (l : JL) : (d.setJl k l).alive = d.alive := by cases k <;> rfl
@[simp] theorem setJl_ref (d : Cd) (k : Kind) (l : JL) : (d.setJl k l).ref = d.ref := by cases k <;> rfl
@[simp] theorem setJl_par (d : Cd) (k : Kind) (l : JL) : (d.setJl k l).par = d.par := by cases k <;> rfl
@[simp] theorem setJl_fb (d : Cd) (k : Kind) (l : JL) : (d.setJl k l).fb = d.fb := by cases k <;> rfl
@[simp] theorem ref_jl (d : Cd) (r : Int) (k : Kind) : ({ d with ref := r } : Cd).jl k = d.jl k := by cases k <;> rfl
theorem setJl_ref_comm (d : Cd) (r : Int) (k : Kind) (l : JL) :
    ({ d with ref := r } : Cd).setJl k l = { d.setJl k l with ref := r } := by cases k <;> rfl

theorem fits_grow {l : JL} (h : Fits l) : l.items.length < grow l := by
  unfold Fits at h
  unfold grow
  split
  · split <;> omega
  · omega

/-- The record of the top `Ceed` after a string was added. -/
def pushed (k : Kind) (s : String) (d : Cd) : Cd :=
  d.setJl k { d.jl k with cap := grow (d.jl k), items := (d.jl k).items ++ [s] }

theorem add_ok (h : Usable w c t) (hf : Fits ((w.cd t).jl k)) (hr : ((w.cd t).jl k).readers = 0) (s : String) :
    add k c s w = .ok (w.upd t (pushed k s)) () := by
  have hta := h.2.2.2.1
  unfold add
  rw [M.bind_apply, getParent_ok h, Out.bind_ok, M.bind_apply, look_ok (by rw [upd_same]; exact hta), Out.bind_ok, M.bind_apply,
    upd_same, M.check_true (by rw [ref_jl]; exact hr), Out.bind_ok, if_pos (by rw [ref_jl]; exact fits_grow hf)]
  exact (around (g := pushed k s) h (fun d => by simp [pushed]) (fun d => by simp [pushed])
    (fun d r => by simp [pushed, setJl_ref_comm])).2

/-- Adding a string appends it to the list of the top ancestor; no other list, and no reference count, changes. -/
theorem C82_add (h : Usable w c t) (hf : Fits ((w.cd t).jl k)) (hr : ((w.cd t).jl k).readers = 0) (s : String) :
    ∃ w', add k c s w = .ok w' () ∧
      (∀ x k', ((w'.cd x).jl k').items = if x = t ∧ k' = k then ((w.cd t).jl k).items ++ [s] else ((w.cd x).jl k').items) ∧
      (∀ x k', ((w'.cd x).jl k').readers = ((w.cd x).jl k').readers) ∧ Fits ((w'.cd t).jl k) ∧
      ∀ x, (w'.cd x).ref = (w.cd x).ref ∧ (w'.cd x).alive = (w.cd x).alive ∧ (w'.cd x).par = (w.cd x).par := by
  refine ⟨_, add_ok h hf hr s, fun x k' => ?_, fun x k' => ?_, ?_, fun x => ?_⟩
  · by_cases hx : x = t
    · subst hx
      rw [upd_same]
      by_cases hk : k' = k
      · subst hk; simp [pushed]
      · simp [pushed, hk]
    · rw [upd_ne _ _ hx, if_neg (fun h => hx h.1)]
  · by_cases hx : x = t
    · subst hx
      rw [upd_same]
      by_cases hk : k' = k
      · subst hk; simp [pushed]
      · simp [pushed, hk]
    · rw [upd_ne _ _ hx]
  · have := fits_grow hf
    rw [upd_same]
    simp only [pushed, jl_setJl, if_true, Fits, List.length_append, List.length_singleton]
    omega
  · by_cases hx : x = t
    · subst hx
      simp [pushed]
    · simp [upd_ne _ _ hx]

/-- While the list is lent, nothing can be added to it: the call is an error and no list changes. -/
theorem C82_add_refused (h : Usable w c t) (hr : ((w.cd t).jl k).readers ≠ 0) (s : String) :
    ∃ w', add k c s w = .err w' .access ∧ ∀ x k', (w'.cd x).jl k' = (w.cd x).jl k' := by
  have hta := h.2.2.2.1
  refine ⟨w.upd t fun d => { d with ref := d.ref + 1 }, ?_, fun x k' => ?_⟩
  · unfold add
    rw [M.bind_apply, getParent_ok h, Out.bind_ok, M.bind_apply, look_ok (by rw [upd_same]; exact hta), Out.bind_ok, M.bind_apply,
      upd_same, M.check_false (by rw [ref_jl]; exact hr)]
    rfl
  · by_cases hx : x = t
    · subst hx; simp
    · rw [upd_ne _ _ hx]

/-- One more, or one less, reader. -/
def readers (k : Kind) (i : Int) (d : Cd) : Cd := d.setJl k { d.jl k with readers := (d.jl k).readers + i }

theorem getL_ok (h : Usable w c t) : getL k c w = .ok (w.upd t (readers k 1)) ((w.cd t).jl k).items := by
  have hta := h.2.2.2.1
  unfold getL
  rw [M.bind_apply, getParent_ok h, Out.bind_ok, M.bind_apply, look_ok (by rw [upd_same]; exact hta), Out.bind_ok, M.bind_apply]
  unfold upd
  rw [Out.bind_ok, M.bind_apply]
  have := (around (g := readers k 1) h (fun d => by simp [readers]) (fun d => by simp [readers])
    (fun d r => by simp [readers, setJl_ref_comm])).2
  unfold readers at this
  rw [this, Out.bind_ok, upd_same, ref_jl]
  rfl

theorem restoreL_ok (h : Usable w c t) : restoreL k c w = .ok (w.upd t (readers k (-1))) () := by
  unfold restoreL
  rw [M.bind_apply, getParent_ok h, Out.bind_ok, M.bind_apply]
  exact (around (g := readers k (-1)) h (fun d => by simp [readers]) (fun d => by simp [readers])
    (fun d r => by simp [readers, setJl_ref_comm])).2

/-- Asking for a list gives the list of the top ancestor and locks it; no list and no reference count changes. -/
theorem C82_get (h : Usable w c t) :
    ∃ w', getL k c w = .ok w' ((w.cd t).jl k).items ∧
      (∀ x k', ((w'.cd x).jl k').items = ((w.cd x).jl k').items) ∧
      (∀ x k', ((w'.cd x).jl k').readers = ((w.cd x).jl k').readers + if x = t ∧ k' = k then 1 else 0) ∧
      ∀ x, (w'.cd x).ref = (w.cd x).ref ∧ (w'.cd x).alive = (w.cd x).alive ∧ (w'.cd x).par = (w.cd x).par := by
  refine ⟨_, getL_ok h, fun x k' => ?_, fun x k' => ?_, fun x => ?_⟩
  · by_cases hx : x = t
    · subst hx
      by_cases hk : k' = k
      · subst hk; simp [readers]
      · simp [readers, hk]
    · rw [upd_ne _ _ hx]
  · by_cases hx : x = t
    · subst hx
      by_cases hk : k' = k
      · subst hk; simp [readers]
      · simp [readers, hk]
    · rw [upd_ne _ _ hx, if_neg (fun h => hx h.1)]; omega
  · by_cases hx : x = t
    · subst hx
      simp [readers]
    · simp [upd_ne _ _ hx]

theorem isTop_congr {cd cd' : Nat → Cd} (e : ∀ x, (cd' x).par = (cd x).par) (h : IsTop cd c t) : IsTop cd' c t := by
  induction h with
  | here hn => exact .here (by rw [e]; exact hn)
  | step hp _ ih => exact .step (by rw [e]; exact hp) ih

theorem usable_congr (e : ∀ x, (w'.cd x).par = (w.cd x).par ∧ (w'.cd x).alive = (w.cd x).alive ∧ (w'.cd x).ref = (w.cd x).ref)
    (h : Usable w c t) : Usable w' c t := by
  obtain ⟨ho, ht, a, b, d⟩ := h
  exact ⟨fun x p hp => ho x p (by rw [← (e x).1]; exact hp), isTop_congr (fun x => (e x).1) ht, by rw [(e c).2.1]; exact a,
    by rw [(e t).2.1]; exact b, by rw [(e t).2.2]; exact d⟩

theorem usable_upd {g : Cd → Cd} (x : Nat) (e : ∀ d, (g d).par = d.par ∧ (g d).alive = d.alive ∧ (g d).ref = d.ref)
    (h : Usable w c t) : Usable (w.upd x g) c t := by
  refine usable_congr (fun y => ?_) h
  by_cases hy : y = x
  · subst hy; simpa using e _
  · simp [upd_ne _ _ hy]

theorem readers_keep (k : Kind) (i : Int) (d : Cd) :
    (readers k i d).par = d.par ∧ (readers k i d).alive = d.alive ∧ (readers k i d).ref = d.ref := by simp [readers]

theorem pushed_keep (k : Kind) (s : String) (d : Cd) :
    (pushed k s d).par = d.par ∧ (pushed k s d).alive = d.alive ∧ (pushed k s d).ref = d.ref := by simp [pushed]

/-- Asking for a list and giving it back changes nothing at all. -/
theorem C82_get_restore (h : Usable w c t) : ∃ w', getL k c w = .ok w' ((w.cd t).jl k).items ∧ restoreL k c w' = .ok w () := by
  refine ⟨_, getL_ok h, ?_⟩
  rw [restoreL_ok (usable_upd t (readers_keep k 1) h), upd_upd, upd_id]
  cases k <;> simp [readers, Cd.setJl, Cd.jl]

/-- Adding several strings to a `Ceed` that is its own top. -/
theorem addAll_ok (l : List String) : ∀ (w : W), Usable w c c → Fits ((w.cd c).jl k) → ((w.cd c).jl k).readers = 0 →
    ∃ g : Cd → Cd, addAll k c l w = .ok (w.upd c g) () ∧
      ((g (w.cd c)).jl k).items = ((w.cd c).jl k).items ++ l ∧ Fits ((g (w.cd c)).jl k) ∧ ((g (w.cd c)).jl k).readers = 0 ∧
      (∀ k', k' ≠ k → (g (w.cd c)).jl k' = (w.cd c).jl k') ∧ ∀ d, (g d).par = d.par ∧ (g d).alive = d.alive ∧ (g d).ref = d.ref := by
  induction l with
  | nil =>
    intro w h hf hr
    exact ⟨id, by rw [upd_id _ _ rfl]; rfl, by simp, hf, hr, fun _ _ => rfl, fun _ => ⟨rfl, rfl, rfl⟩⟩
  | cons s l ih =>
    intro w h hf hr
    have hf' : Fits (((w.upd c (pushed k s)).cd c).jl k) := by
      have := fits_grow hf
      rw [upd_same]
      simp only [pushed, jl_setJl, if_true, Fits, List.length_append, List.length_singleton]
      omega
    obtain ⟨g, h1, h2, h3, h4, h5, h6⟩ := ih (w.upd c (pushed k s)) (usable_upd c (pushed_keep k s) h) hf'
      (by rw [upd_same]; simp [pushed, hr])
    rw [upd_same] at h2 h3 h4 h5
    refine ⟨fun d => g (pushed k s d), ?_, ?_, h3, h4, fun k' hk => ?_, fun d => ?_⟩
    · unfold addAll
      rw [M.bind_apply, add_ok h hf hr, Out.bind_ok, h1, upd_upd]
    · rw [h2]; simp [pushed]
    · rw [h5 k' hk]; simp [pushed, hk]
    · obtain ⟨a, b, e⟩ := h6 (pushed k s d)
      obtain ⟨a', b', e'⟩ := pushed_keep k s d
      exact ⟨a.trans a', b.trans b', e.trans e'⟩

theorem isTop_le {cd : Nat → Cd} (ho : Ordered cd) (h : IsTop cd c t) : t ≤ c := by
  induction h with
  | here _ => exact le_rfl
  | step hp _ ih => have := ho _ _ hp; omega

theorem isTop_below {cd cd' : Nat → Cd} (ho : Ordered cd) (h : IsTop cd c t) {n : Nat} (hn : c < n)
    (e : ∀ x < n, (cd' x).par = (cd x).par) : IsTop cd' c t := by
  induction h with
  | here hp => exact .here (by rw [e _ hn]; exact hp)
  | step hp _ ih => exact .step (by rw [e _ hn]; exact hp) (ih (by have := ho _ _ hp; omega))

/-- The state before the lists are copied to the fallback. -/
def withFb (dflt : String) (c : Nat) (w : W) : W :=
  ({ w.upd w.next (fun _ => fresh dflt) with next := w.next + 1 }).upd c fun d => { d with fb := some w.next }

theorem withFb_new (dflt : String) (hc : c < w.next) : (withFb dflt c w).cd w.next = fresh dflt := by
  unfold withFb
  rw [upd_ne _ _ (by omega)]
  exact upd_same w w.next fun _ => fresh dflt

theorem withFb_old (dflt : String) (c : Nat) (w : W) {x : Nat} (hx : x ≠ w.next) :
    (withFb dflt c w).cd x = if x = c then { w.cd c with fb := some w.next } else w.cd x := by
  unfold withFb
  by_cases hc : x = c
  · subst hc
    rw [upd_same, if_pos rfl]
    show ({ (w.upd w.next fun _ => fresh dflt).cd x with fb := some w.next } : Cd) = _
    rw [upd_ne _ _ hx]
  · rw [upd_ne _ _ hc, if_neg hc]
    exact upd_ne w (fun _ => fresh dflt) hx

theorem withFb_keep (dflt : String) (c : Nat) (w : W) {x : Nat} (hx : x ≠ w.next) :
    ((withFb dflt c w).cd x).par = (w.cd x).par ∧ ((withFb dflt c w).cd x).alive = (w.cd x).alive ∧
    ((withFb dflt c w).cd x).ref = (w.cd x).ref ∧ ∀ k, ((withFb dflt c w).cd x).jl k = (w.cd x).jl k := by
  rw [withFb_old _ _ _ hx]
  by_cases hc : x = c
  · subst hc
    rw [if_pos rfl]
    exact ⟨rfl, rfl, rfl, fun k => by cases k <;> rfl⟩
  · rw [if_neg hc]
    exact ⟨rfl, rfl, rfl, fun _ => rfl⟩

theorem withFb_usable (dflt : String) (h : Usable w c t) (hc : c < w.next) :
    Usable (withFb dflt c w) c t ∧ Usable (withFb dflt c w) w.next w.next := by
  obtain ⟨ho, ht, a, b, d⟩ := h
  have htc := isTop_le ho ht
  have ho' : Ordered (withFb dflt c w).cd := by
    intro x p hp
    by_cases hx : x = w.next
    · subst hx
      rw [withFb_new dflt hc] at hp
      cases hp
    · exact ho x p (by rw [← (withFb_keep dflt c w hx).1]; exact hp)
  have kc := withFb_keep dflt c w (x := c) (by omega)
  have kt := withFb_keep dflt c w (x := t) (by omega)
  refine ⟨⟨ho', isTop_below ho ht hc (fun x hx => (withFb_keep dflt c w (by omega)).1), kc.2.1.trans a, kt.2.1.trans b, ?_⟩,
    ho', .here ?_, ?_, ?_, ?_⟩
  · rw [kt.2.2.1]; exact d
  all_goals rw [withFb_new dflt hc]
  all_goals first | rfl | decide

/-- A list is read from one `Ceed` and copied to the source roots of another. -/
theorem copy_ok {n : Nat} (h : Usable w c t) (hn : Usable w n n) (hne : t ≠ n) (hf : Fits ((w.cd n).jl .roots))
    (hr : ((w.cd n).jl .roots).readers = 0) :
    ∃ g : Cd → Cd, (do
        let r ← getL k c
        addAll .roots n r
        restoreL k c : M W Unit) w = .ok (w.upd n g) () ∧
      ((g (w.cd n)).jl .roots).items = ((w.cd n).jl .roots).items ++ ((w.cd t).jl k).items ∧ Fits ((g (w.cd n)).jl .roots) ∧
      ((g (w.cd n)).jl .roots).readers = 0 ∧ (g (w.cd n)).jl .defs = (w.cd n).jl .defs ∧
      ∀ d, (g d).par = d.par ∧ (g d).alive = d.alive ∧ (g d).ref = d.ref := by
  have e : (w.upd t (readers k 1)).cd n = w.cd n := upd_ne _ _ (Ne.symm hne)
  obtain ⟨g, h1, h2, h3, h4, h5, h6⟩ := addAll_ok (k := .roots) ((w.cd t).jl k).items (w.upd t (readers k 1))
    (usable_upd t (readers_keep k 1) hn) (by rw [e]; exact hf) (by rw [e]; exact hr)
  rw [e] at h2 h3 h4 h5
  refine ⟨g, ?_, h2, h3, h4, h5 _ (by decide), h6⟩
  rw [M.bind_apply, getL_ok h, Out.bind_ok, M.bind_apply, h1, Out.bind_ok,
    restoreL_ok (usable_upd n h6 (usable_upd t (readers_keep k 1) h))]
  congr 1
  refine W_ext (fun x => ?_) rfl
  by_cases hx : x = t
  · subst hx
    rw [upd_same, upd_ne _ _ hne, upd_same, upd_ne _ _ hne]
    cases k <;> simp [readers, Cd.setJl, Cd.jl]
  · rw [upd_ne _ _ hx]
    by_cases hxn : x = n
    · subst hxn
      rw [upd_same, upd_same, e]
    · rw [upd_ne _ _ hxn, upd_ne _ _ hxn, upd_ne _ _ hx]

theorem makeFallback_ok (dflt : String) (h : Usable w c t) (hc : c < w.next) :
    ∃ g : Cd → Cd, makeFallback dflt c w = .ok ((withFb dflt c w).upd w.next g) () ∧
      (g (fresh dflt)).roots.items = dflt :: (((w.cd t).jl .roots).items ++ ((w.cd t).jl .defs).items) ∧
      (g (fresh dflt)).defs.items = [] ∧ (g (fresh dflt)).alive = true ∧ (g (fresh dflt)).ref = 1 := by
  have htc := isTop_le h.1 h.2.1
  obtain ⟨u1, u2⟩ := withFb_usable dflt h hc
  have en := withFb_new dflt hc
  have et := (withFb_keep dflt c w (x := t) (by omega)).2.2.2
  have hne : t ≠ w.next := by omega
  obtain ⟨g, a1, a2, a3, a4, a5, a6⟩ := copy_ok (k := .roots) u1 u2 hne (by rw [en]; show (1 : Nat) ≤ 2; omega) (by rw [en]; rfl)
  obtain ⟨g', b1, b2, b3, b4, b5, b6⟩ := copy_ok (k := .defs) (w := (withFb dflt c w).upd w.next g) (usable_upd _ a6 u1)
    (usable_upd _ a6 u2) hne (by rw [upd_same]; exact a3) (by rw [upd_same]; exact a4)
  rw [upd_same] at b2 b5
  rw [upd_ne _ _ hne] at b2
  rw [a2] at b2
  rw [en] at a2 a5 b2 b5
  rw [et, et] at b2
  rw [upd_upd] at b1
  refine ⟨fun d => g' (g d), ?_, ?_, ?_, ?_, ?_⟩
  · have : makeFallback dflt c w = ((do
        let r ← getL .roots c
        addAll .roots w.next r
        restoreL .roots c : M W Unit) (withFb dflt c w)).bind (fun v _ => (do
        let l ← getL .defs c
        addAll .roots w.next l
        restoreL .defs c : M W Unit) v) := by
      show (getL .roots c (withFb dflt c w)).bind _ = ((getL .roots c (withFb dflt c w)).bind _).bind _
      cases getL .roots c (withFb dflt c w) with
      | ok s a =>
        show ((addAll .roots w.next a) s).bind _ = (((addAll .roots w.next a) s).bind _).bind _
        cases (addAll .roots w.next a) s with
        | ok s' a' => rfl
        | err s' e => rfl
        | ub => rfl
      | err s e => rfl
      | ub => rfl
    rw [this, a1, Out.bind_ok, b1]
  · exact b2
  · have : ((g' (g (fresh dflt))).jl .defs).items = [] := by rw [b5, a5]; rfl
    exact this
  · rw [(b6 _).2.1, (a6 _).2.1]; rfl
  · rw [(b6 _).2.2, (a6 _).2.2]; rfl

/-- The fallback of a `Ceed` is made with the default source root, followed by all source roots of the `Ceed`, in order.
The lists, locks and reference counts of all other `Ceed`s stay as they are. What should be said of the defines is
refuted below: they are appended to the source roots. -/
theorem C82_fallback_partial (dflt : String) (h : Usable w c t) (hc : c < w.next) (hfb : (w.cd c).fb = none)
    (hres : (w.cd c).fbRes = true) :
    ∃ w', fallback dflt c w = .ok w' (some w.next) ∧
      (w'.cd w.next).roots.items = dflt :: (((w.cd t).jl .roots).items ++ ((w.cd t).jl .defs).items) ∧
      (w'.cd w.next).defs.items = [] ∧ (w'.cd w.next).ref = 2 ∧
      ∀ x, x ≠ w.next → (∀ k, (w'.cd x).jl k = (w.cd x).jl k) ∧ (w'.cd x).ref = (w.cd x).ref := by
  obtain ⟨g, h1, h2, h3, h4, h5⟩ := makeFallback_ok dflt h hc
  have en := withFb_new dflt hc
  have hcn : c ≠ w.next := by omega
  have hfc : ((withFb dflt c w).upd w.next g).cd c = { w.cd c with fb := some w.next } := by
    rw [upd_ne _ _ hcn, withFb_old _ _ _ hcn, if_pos rfl]
  have hl1 : look c ((withFb dflt c w).upd w.next g) = .ok ((withFb dflt c w).upd w.next g) { w.cd c with fb := some w.next } := by
    rw [look_ok, hfc]
    rw [hfc]; exact h.2.2.1
  have hl2 : look w.next ((withFb dflt c w).upd w.next g) =
      .ok ((withFb dflt c w).upd w.next g) (((withFb dflt c w).upd w.next g).cd w.next) := by
    rw [look_ok]
    rw [upd_same, en]; exact h4
  refine ⟨((withFb dflt c w).upd w.next g).upd w.next (fun e => { e with ref := e.ref + 1 }), ?_, ?_, ?_, ?_, fun x hx => ?_⟩
  · unfold fallback
    rw [M.bind_apply, look_ok h.2.2.1, Out.bind_ok, if_pos ⟨hfb, hres⟩, M.bind_apply, h1, Out.bind_ok]
    show (look c _).bind _ = _
    rw [hl1, Out.bind_ok]
    show (look w.next _).bind _ = _
    rw [hl2]
    rfl
  · rw [upd_same, upd_same, en]; exact h2
  · rw [upd_same, upd_same, en]; exact h3
  · rw [upd_same, upd_same, en]; simp only; rw [h5]; rfl
  · rw [upd_ne _ _ hx, upd_ne _ _ hx]
    have := withFb_keep dflt c w hx
    exact ⟨this.2.2.2, this.2.2.1⟩

/-- Once made, the fallback is the same at every later call, and no list changes. -/
theorem C82_fallback_again (dflt : String) {f : Nat} (ha : (w.cd c).alive = true) (hfb : (w.cd c).fb = some f)
    (hf : (w.cd f).alive = true) :
    ∃ w', fallback dflt c w = .ok w' (some f) ∧ w'.next = w.next ∧ (∀ x k, (w'.cd x).jl k = (w.cd x).jl k) ∧
      ∀ x, (w'.cd x).ref = (w.cd x).ref + if x = f then 1 else 0 := by
  refine ⟨w.upd f (fun e => { e with ref := e.ref + 1 }), ?_, rfl, fun x k => ?_, fun x => ?_⟩
  · unfold fallback
    rw [M.bind_apply, look_ok ha, Out.bind_ok, if_neg (by rw [hfb]; simp)]
    show (look c w).bind _ = _
    rw [look_ok ha, Out.bind_ok]
    simp only [hfb]
    show (look f w).bind _ = _
    rw [look_ok hf]
    rfl
  · by_cases hx : x = f
    · subst hx; simp
    · rw [upd_ne _ _ hx]
  · by_cases hx : x = f
    · subst hx; simp
    · rw [upd_ne _ _ hx, if_neg hx]; omega

/-- A `Ceed` whose lists are lent is not destroyed. -/
theorem C82_destroy_refused (ha : (w.cd c).alive = true) (hr : ((w.cd c).jl k).readers ≠ 0) :
    ∃ v, (destroy c w = .ok v () ∨ destroy c w = .err v .access) ∧ (v.cd c).alive = true ∧
      (1 < (w.cd c).ref ↔ destroy c w = .ok v ()) := by
  have hd : ((w.upd c fun d => { d with ref := d.ref - 1 }).cd c).alive = true := by rw [upd_same]; exact ha
  by_cases h1 : 0 < (w.cd c).ref - 1
  · have : destroy c w = .ok (w.upd c fun d => { d with ref := d.ref - 1 }) () := by
      unfold destroy
      simp only [M.bind_apply, look_ok ha, Out.bind_ok, upd]
      rw [if_pos h1]; rfl
    exact ⟨_, Or.inl this, hd, fun _ => this, fun _ => by omega⟩
  · have : destroy c w = .err (w.upd c fun d => { d with ref := d.ref - 1 }) .access := by
      unfold destroy
      simp only [M.bind_apply, look_ok ha, Out.bind_ok, upd]
      rw [if_neg h1, M.bind_apply]
      by_cases hr1 : (w.cd c).roots.readers = 0
      · rw [M.check_true hr1, Out.bind_ok, M.bind_apply, M.check_false (by cases k; exact absurd hr1 hr; exact hr)]; rfl
      · rw [M.check_false hr1]; rfl
    exact ⟨_, Or.inr this, hd, fun _ => by omega, fun e => by rw [this] at e; cases e⟩

/-! ## Examples and disagreements -/

/-- `Ceed` 1 is a delegate of `Ceed` 0, whose fallback is not yet made. -/
def exW : W where
  cd := fun x => if x = 0 then { fresh "/inc" with fbRes := true, ref := 2 } else { fresh "/inc" with par := some 0 }
  next := 2

example : Usable exW 1 0 := by
  refine ⟨fun c p h => ?_, .step rfl (.here rfl), rfl, rfl, by decide⟩
  by_cases hc : c = 0
  · subst hc; cases h
  · simp only [exW, hc, if_false, Option.some.injEq] at h
    omega
example : Fits ((exW.cd 0).jl .roots) := by show (1 : Nat) ≤ 2; omega

/-- The list asked for through the delegate has what was added through the delegate. -/
example : ∃ w, (do
    add .roots 1 "/a"
    add .roots 0 "/b"
    add .defs 1 "N=4"
    let r ← getL .roots 0
    let d ← getL .defs 1
    pure (r, d) : M W _) exW = .ok w (["/inc", "/a", "/b"], ["N=4"]) := ⟨_, rfl⟩

/-- The compiler defines of a `Ceed` are not passed to its fallback, but become source directories of it. -/
theorem C82_fallback_defines_witness :
    ∃ w, (do
      add .defs 0 "N=4"
      fallback "/inc" 0 : M W _) exW = .ok w (some 2) ∧
      (w.cd 2).defs.items = [] ∧ (w.cd 2).roots.items = ["/inc", "/inc", "N=4"] := ⟨_, rfl, by decide +kernel, by decide +kernel⟩

/-- What is added after the fallback was made does not reach it. -/
theorem C82_fallback_late_witness :
    ∃ w, (do
      let _ ← fallback "/inc" 0
      add .roots 0 "/late"
      fallback "/inc" 0 : M W _) exW = .ok w (some 2) ∧
      (w.cd 0).roots.items = ["/inc", "/late"] ∧ (w.cd 2).roots.items = ["/inc", "/inc"] :=
  ⟨_, rfl, by decide +kernel, by decide +kernel⟩

/-- An addition that is refused keeps a reference to the `Ceed` nobody knows of: it is never freed. -/
theorem C82_refused_leak_witness :
    ∃ w, (do
      let _ ← getL .roots 0
      add .roots 0 "/a" : M W _) exW = .err w .access ∧ (w.cd 0).ref = 3 := ⟨_, rfl, by decide +kernel⟩

/-- A refused `CeedDestroy` has already given up the reference: giving the list back then frees the `Ceed`, and the next
`CeedDestroy` of the handle, which was not reset, uses freed memory. -/
theorem C82_destroy_refused_witness :
    ∃ w1 w2 w3, getL .roots 5 { exW with cd := fun _ => fresh "/inc" } = .ok w1 ["/inc"] ∧ destroy 5 w1 = .err w2 .access ∧
      restoreL .roots 5 w2 = .ok w3 () ∧ (w3.cd 5).alive = false ∧ destroy 5 w3 = .ub :=
  ⟨_, _, _, rfl, rfl, rfl, by decide +kernel, rfl⟩

end JitPaths
end Verif
