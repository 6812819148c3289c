import Verif.DevVec.Exec

/-!
# C63: vectors with arrays on the host and on the device stay coherent

Every statement is about any history of legal calls (`Reach`, `Legal` of `Verif.DevVec.Spec`), any number of vectors and arrays, any
lengths and any scalars. `E.big .host = E.big .device` says that `1. / x` is skipped for the same `x` on the host and on the device,
which is so in double precision.
-/

set_option linter.unusedSectionVars false

namespace Verif
namespace DevVec

open Vector (Mem Mode NormType)

variable {α : Type} [CommRing α] [DecidableEq α] {E : Env α}

/-- A part of a history that consists of calls with the property `P`. -/
inductive Path (E : Env α) (P : Call α → Prop) (w : W α) : W α → Prop
  | refl : Path E P w w
  | step {w' w'' c} (h : Path E P w w') (hl : Legal E w' c) (hP : P c) (hs : Step E w' c w'') : Path E P w w''

theorem Path.reach {P : Call α → Prop} {w w' : W α} (hr : Reach E w) (h : Path E P w w') : Reach E w' := by
  induction h with
  | refl => exact hr
  | step _ hl _ hs ih => exact .step ih hl hs

/-- No legal call does anything undefined: no access outside of an array, to a freed array, or to the wrong memory, no double free. -/
theorem C63_safe (hE : E.big .host = E.big .device) {w : W α} (hr : Reach E w) {c : Call α} (hl : Legal E w c) : exec E c w ≠ .ub :=
  fun h => M.wp_ub (exec_wp hE (hr.inv hE) hl) h trivial

/-- At any time, a vector either has no valid array, or all its valid arrays contain the same values. -/
theorem C63_coherent (hE : E.big .host = E.big .device) {w : W α} (hr : Reach E w) {v : Nat} (hv : Is w v) : (∃ f, HasVals w v f) ∨ NoVals w v := by
  obtain ⟨x, hx⟩ := hv
  by_cases h : Valid x
  · obtain ⟨f, hf⟩ := ((hr.inv hE).vec v x hx).coh
    exact .inl ⟨f, ((hr.inv hE).hasVals_iff hx).2 ⟨h, hf⟩⟩
  · exact .inr ((noVals_iff hx).2 h)

/-- The values of a vector are determined. -/
theorem C63_values_unique (hE : E.big .host = E.big .device) {w : W α} (hr : Reach E w) {v n : Nat} (hn : Len w v n) {f g : Nat → α} (hf : HasVals w v f)
    (hg : HasVals w v g) : ∀ i < n, f i = g i := by
  obtain ⟨x, hx, rfl⟩ := hn
  exact (hr.inv hE).vals_unique hx hf hg

/-- A successful call does what its documentation says to the vector it is about, wherever its values are. -/
theorem C63_documented (hE : E.big .host = E.big .device) {w w' : W α} (hr : Reach E w) {c : Call α} (hl : Legal E w c) {r : Ret α} (h : exec E c w = .ok w' r) :
    Doc E w w' c :=
  (M.wp_ok (exec_wp hE (hr.inv hE) hl) h).doc

/-- A successful call returns what its documentation says. Arrays that are granted are in the memory that was asked for, are long enough,
and contain the current values; `CeedVectorTakeArray` returns the array that was lent, with the current values in it, and no vector has
it afterwards; `CeedVectorSyncArray` brings the current values to an array that was lent. -/
theorem C63_returned (hE : E.big .host = E.big .device) {w w' : W α} (hr : Reach E w) {c : Call α} (hl : Legal E w c) {r : Ret α} (h : exec E c w = .ok w' r) :
    Returns E w w' c r :=
  (M.wp_ok (exec_wp hE (hr.inv hE) hl) h).ret

/-- Vectors the call is not given are not touched, and no vector but its target changes its values. -/
theorem C63_others (hE : E.big .host = E.big .device) {w w' : W α} (hr : Reach E w) {c : Call α} (hl : Legal E w c) {r : Ret α} (h : exec E c w = .ok w' r)
    (u : Nat) : (¬ Args c u → w'.vecs u = w.vecs u) ∧ (¬ Target w c u → Keeps w w' u) :=
  have hp := M.wp_ok (exec_wp hE (hr.inv hE) hl) h
  ⟨hp.vecs u, hp.keeps u⟩

/-- A call that fails does not change the values of any vector that has values. Unless it is `CeedVectorCopy` or
`CeedVectorPointwiseMult`, it changes nothing. -/
theorem C63_failed_partial (hE : E.big .host = E.big .device) {w w' : W α} (hr : Reach E w) {c : Call α} (hl : Legal E w c) {e : Err} (h : exec E c w = .err w' e) :
    (∀ u f, HasVals w u f → HasVals w' u f) ∧ ((∀ x y, c ≠ .copy x y) → (∀ u x y, c ≠ .pointwiseMult u x y) → w' = w) :=
  have hp := M.wp_err (exec_wp hE (hr.inv hE) hl) h
  ⟨hp.vals, hp.same⟩

/-- Arrays of the program are not written to unless a vector that the call is given has them, and are not freed. -/
theorem C63_arrays (hE : E.big .host = E.big .device) {w w' : W α} (hr : Reach E w) {c : Call α} (hl : Legal E w c) (hs : Step E w c w') {a : Nat} {b : Blk α}
    (hb : w.heap a = some b) (hn : ∀ u, Args c u → ¬ HeldBy w u a) (h1 : ∀ i z, c ≠ .store a i z) (h2 : c ≠ .mfree a) :
    ∃ b', w'.heap a = some b' ∧ b'.mem = b.mem ∧ b'.buf = b.buf := by
  have hp := exec_wp hE (hr.inv hE) hl
  cases hs with
  | ok h => exact (M.wp_ok hp h).data a b hb hn h1 h2
  | err h => exact ⟨b, by rw [(M.wp_err hp h).rel.heap a ((hr.inv hE).lt_next hb) hn]; exact hb, rfl, rfl⟩

/-- An array lent to a vector stays allocated and in place, through any history, until it is taken back, another one is lent or given
for the same memory, or the vector is destroyed. -/
theorem C63_lent (hE : E.big .host = E.big .device) {w w' : W α} (hr : Reach E w) {v a : Nat} {m : Mem} (ha : Lent w v m a)
    (hp : Path E (fun c => c ≠ .destroy v ∧ c ≠ .takeArray v m ∧ ∀ mode src, mode ≠ .copyValues → c ≠ .setArray v m mode src) w w') :
    Lent w' v m a ∧ ∃ b, w'.heap a = some b ∧ b.mem = m := by
  have hl : Lent w' v m a := by
    induction hp with
    | refl => exact ha
    | @step w1 w2 c hp hl hP hs ih =>
      have hq := exec_wp hE ((hp.reach hr).inv hE) hl
      cases hs with
      | ok h => exact (M.wp_ok hq h).lent v m a ih hP.1 hP.2.1 hP.2.2
      | err h => exact ((M.wp_err hq h).rel.kept v).lent ih
  refine ⟨hl, ?_⟩
  obtain ⟨x, hx, hb⟩ := hl
  have hV := ((hp.reach hr).inv hE).vec v x hx
  obtain ⟨b, h1, h2, -⟩ := hV.slot m a (hV.slot_of (.inr hb))
  exact ⟨b, h1, h2⟩

/-- While access for writing is granted, the array stays the one of the vector through any history until `CeedVectorRestoreArray`, and what
it contains are the values of the vector. -/
theorem C63_writing (hE : E.big .host = E.big .device) {w w' : W α} (hr : Reach E w) {v a : Nat} (ha : Writable w v a)
    (hp : Path E (fun c => c ≠ .restoreArray v) w w') : Writable w' v a ∧ ∃ b, w'.heap a = some b ∧ HasVals w' v b.buf.val := by
  have hl : Writable w' v a := by
    induction hp with
    | refl => exact ha
    | @step w1 w2 c hp hl hP hs ih =>
      have hq := exec_wp hE ((hp.reach hr).inv hE) hl
      obtain ⟨x, m, hx, ho, ha'⟩ := ih
      have hw : Writes w1 w2 v := by
        cases hs with
        | ok h => exact (M.wp_ok hq h).writes v hP
        | err h => exact (M.wp_err hq h).rel.writes v id
      obtain ⟨x', h1, h2, h3⟩ := hw x m a hx ho ha'
      exact ⟨x', m, h1, h2 ▸ ho, h3⟩
  refine ⟨hl, ?_⟩
  have hI := (hp.reach hr).inv hE
  obtain ⟨x, m, hx, ho, ha'⟩ := hl
  have hV := hI.vec v x hx
  obtain ⟨f, hf⟩ := hV.coh
  obtain ⟨b, hb, hbf⟩ := hf m a ha'
  exact ⟨b, hb, ((hI.hasVals_iff hx).2 ⟨⟨m, by rw [ha']; simp⟩, hf⟩).congr fun y hy i hi' => by rw [hx] at hy; cases hy; exact (hbf i hi').symm⟩

/-- While access for reading is granted, an array of the vector that contains its values keeps them through any history without
arithmetic on the vector until `CeedVectorRestoreArrayRead`. -/
theorem C63_reading_partial (hE : E.big .host = E.big .device) {w w' : W α} (hr : Reach E w) {v a n : Nat} {m : Mem} {f : Nat → α} (ha : Readable w v a) (hn : Len w v n)
    (hf : HasVals w v f) (hg : Gives w (some a) m n f) (hp : Path E (fun c => ¬ Arithmetic v c ∧ c ≠ .restoreArrayRead v) w w') :
    Readable w' v a ∧ HasVals w' v f ∧ Gives w' (some a) m n f := by
  suffices h : Readable w' v a ∧ Len w' v n ∧ HasVals w' v f ∧ Gives w' (some a) m n f from ⟨h.1, h.2.2⟩
  induction hp with
  | refl => exact ⟨ha, hn, hf, hg⟩
  | @step w1 w2 c hp hl hP hs ih =>
    obtain ⟨ha, hn, hf, hg⟩ := ih
    have hI := (hp.reach hr).inv hE
    have hq := exec_wp hE hI hl
    obtain ⟨x, m', hx, h0, ho⟩ := ha
    have hn := hn.eq hx
    subst hn
    have hV := hI.vec v x hx
    have hs' := hV.slot_of ho
    obtain ⟨c, b, hc, hb, hbm, hbl, hbf⟩ := hg
    cases hc
    have hrd : Reads w1 w2 v := by
      cases hs with
      | ok h => exact (M.wp_ok hq h).reads v hP.1 hP.2
      | err h => exact (M.wp_err hq h).rel.reads v id
    obtain ⟨x', h1, h2, h3, h4, ⟨b', h5, h5'⟩, h6⟩ := hrd x m' a f hx h0 hs' ⟨b, hb, hbf⟩ hf
    have hV' := (hs.inv hE hI hl).vec v x' h1
    obtain ⟨b2, h7, h8, h9, -⟩ := hV'.slot m' a h4
    rw [h5] at h7
    cases h7
    obtain ⟨b3, h10, h11, -⟩ := hV.slot m' a hs'
    rw [hb] at h10
    cases h10
    exact ⟨⟨x', m', h1, lt_of_lt_of_le h0 h2, (slot_some h4).symm⟩, ⟨x', h1, h3⟩, h6, a, b', rfl, h5, h8.trans (h11.symm.trans hbm), h3 ▸ h9, h5'⟩

/-- Nothing is lost: every array the library has to free belongs to exactly one vector, which exists; so once all vectors are destroyed
there is none. -/
theorem C63_no_leak (hE : E.big .host = E.big .device) {w : W α} (hr : Reach E w) {a : Nat} {b : Blk α} (hb : w.heap a = some b) (hl : b.lib = true) :
    ∃ v, Is w v ∧ HeldBy w v a ∧ ∀ u, HeldBy w u a → u = v := by
  have hI := hr.inv hE
  obtain ⟨v, x, m, hx, ho⟩ := hI.lib a b hb hl
  have : HeldBy w v a := ⟨x, m, hx, .inl ho⟩
  exact ⟨v, ⟨x, hx⟩, this, fun u hu => hI.excl u v a hu this⟩

/-- A call never gives an array of one vector to another one. -/
theorem C63_separate (hE : E.big .host = E.big .device) {w : W α} (hr : Reach E w) {u v a : Nat} (hu : HeldBy w u a) (hv : HeldBy w v a) : u = v :=
  (hr.inv hE).excl u v a hu hv

end DevVec
end Verif
