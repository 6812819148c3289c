import Verif.Gpu.BasisApply
import Verif.DevVec.Spec

/-!
# The kernels for vectors on every schedule

Models `backends/cuda-ref/kernels/cuda-ref-vector.cu` (and `backends/hip-ref/kernels/hip-ref-vector.hip.cpp`). `.v` is the array that is written,
`.u` the array of another vector, `.table 0` that of a third one. Blocks have 512 threads.

Simplifications: `block_size * grid_size` does not overflow (it is computed in `int`, so this holds for less than 2^31 entries); if there is
nothing to do, the grid is empty, and the launch, whose return code is not looked at, does nothing.
-/

namespace Verif.Gpu

variable {α : Type} [CommRing α]

/-- `index = threadIdx.x + (CeedSize)blockDim.x * blockIdx.x`. -/
def index (b t : Nat) : Nat := t + 512 * b

/-- `grid_size` (e.g. `cuda-ref-vector.cu` 48-52); no blocks if it is not positive. -/
def vecGrid (n : Int) : Nat :=
  let g := n.tdiv 512
  (if 512 * g < n then g + 1 else g).toNat

/-- `cuda-ref-vector.cu` 38-42 `setValueK`. -/
def setValueK (size : Int) (val : α) (b t : Nat) : K α Unit :=
  if (index b t : Int) < size then wr .v (index b t) val else pure ()

/-- 60-66 `setValueStridedK`. -/
def setValueStridedK (start stop step : Int) (val : α) (b t : Nat) : K α Unit :=
  if (index b t : Int) < stop - start then
    if (index b t : Int).tmod step = 0 then wr .v (start + index b t) val else pure ()
  else pure ()

/-- 14-20 `copyStridedK`. -/
def copyStridedK (start stop step : Int) (b t : Nat) : K α Unit :=
  if (index b t : Int) < stop - start then
    if (index b t : Int).tmod step = 0 then do
      let x ← rd .u (start + index b t)
      wr .v (start + index b t) x
    else pure ()
  else pure ()

/-- 84-90 `rcpValueK`; `big x` is `fabs(x) > 1E-16`. -/
def rcpValueK (big : α → Bool) (inv : α → α) (size : Int) (b t : Nat) : K α Unit :=
  if (index b t : Int) < size then do
    let x ← rd .v (index b t)
    if big x = true then do
      let y ← rd .v (index b t)
      wr .v (index b t) (inv y)
    else pure ()
  else pure ()

/-- 108-112 `scaleValueK`. -/
def scaleValueK (alpha : α) (size : Int) (b t : Nat) : K α Unit :=
  if (index b t : Int) < size then do
    let x ← rd .v (index b t)
    wr .v (index b t) (x * alpha)
  else pure ()

/-- 130-134 `axpyValueK`. -/
def axpyValueK (alpha : α) (size : Int) (b t : Nat) : K α Unit :=
  if (index b t : Int) < size then do
    let y ← rd .v (index b t)
    let x ← rd .u (index b t)
    wr .v (index b t) (y + alpha * x)
  else pure ()

/-- 152-159 `axpbyValueK`. -/
def axpbyValueK (alpha beta : α) (size : Int) (b t : Nat) : K α Unit :=
  if (index b t : Int) < size then do
    let y ← rd .v (index b t)
    wr .v (index b t) (beta * y)
    let y ← rd .v (index b t)
    let x ← rd .u (index b t)
    wr .v (index b t) (y + alpha * x)
  else pure ()

/-- 177-181 `pointwiseMultValueK`. The factors may be the result itself (`__restrict__`, with which this is undefined for `y`, is left out). -/
def pointwiseMultValueK (ax ay : Arr) (size : Int) (b t : Nat) : K α Unit :=
  if (index b t : Int) < size then do
    let x ← rd ax (index b t)
    let y ← rd ay (index b t)
    wr .v (index b t) (x * y)
  else pure ()

theorem index_lt_of {n : Int} {j : Nat} (h : (j : Int) < n) : j < 512 * vecGrid n := by
  unfold vecGrid
  have h0 : 0 ≤ n := by omega
  rw [Int.tdiv_eq_ediv_of_nonneg h0]
  dsimp only
  split <;> omega

theorem index_inj {b t b' t' : Nat} (ht : t < 512) (ht' : t' < 512) (h : index b t = index b' t') : b = b' ∧ t = t' := by
  unfold index at h
  omega

/-- Threads each of which changes at most the entry `st + index`. -/
theorem entry_runs {n st : Int} {m : Mem α} {act : Nat → Prop} {kern : Nat → Nat → K α Unit} {f : Vals α → Nat → α} (h0 : ∀ j, act j → 0 ≤ st + j ∧ (j : Int) < n)
    (hact : ∀ b t, act (index b t) → Piece (fun a i => a = .v ∧ (i : Int) = st + index b t) (fun a _ => a ≠ .v) m.len (setV f) (kern b t))
    (hidle : ∀ b t, ¬ act (index b t) → kern b t = pure ()) :
    Runs (vecGrid n) 512 (launch kern m) fun s =>
      (∀ i : Nat, (∃ j, act j ∧ (i : Int) = st + j) → s .v i = f m.val i) ∧ (∀ i : Nat, (¬ ∃ j, act j ∧ (i : Int) = st + j) → s .v i = m.val .v i) ∧ ∀ a, a ≠ .v → s a = m.val a := by
  classical
  refine runs_pieces (by omega) (fun b t a i => act (index b t) ∧ a = .v ∧ (i : Int) = st + index b t) (fun a _ => a ≠ .v) (setV f) (fun b _ t _ => ?_)
    (fun b _ t ht b' _ t' ht' a i h h' => ?_) (fun b _ t _ a i h => by simp [h.2.1]) fun s h1 h2 => ⟨fun i ⟨j, hj, hi⟩ => ?_, fun i hi => ?_, fun a ha => ?_⟩
  · by_cases ha : act (index b t)
    · exact (hact b t ha).congr fun a i => ⟨fun h => ⟨ha, h⟩, fun h => h.2⟩
    · rw [hidle b t ha]
      exact piece_pure.congr fun a i => ⟨fun h => h.elim, fun h => ha h.1⟩
  · exact index_inj ht ht' (by have := h.2.2; have := h'.2.2; omega)
  · have hlt := index_lt_of (h0 j hj).2
    have e : index (j / 512) (j % 512) = j := by unfold index; omega
    rw [h1 (j / 512) (by omega) (j % 512) (by omega) .v i ⟨by rw [e]; exact hj, rfl, by rw [e]; exact hi⟩]
    exact if_pos rfl
  · exact h2 .v i fun b _ t _ h => hi ⟨index b t, h.1, h.2.2⟩
  · funext i
    exact h2 a i fun b _ t _ h => ha h.2.1

section
variable {n : Nat} {m : Mem α}

theorem full_iff {i : Nat} : (∃ j : Nat, j < n ∧ (i : Int) = 0 + (j : Int)) ↔ i < n :=
  ⟨fun ⟨j, hj, h⟩ => by omega, fun h => ⟨i, h, by omega⟩⟩

/-- Kernels with one thread for each of the first `n` entries. -/
theorem full_runs {kern : Nat → Nat → K α Unit} {f : Vals α → Nat → α}
    (hact : ∀ b t, index b t < n → Piece (fun a i => a = .v ∧ i = index b t) (fun a _ => a ≠ .v) m.len (setV f) (kern b t))
    (hidle : ∀ b t, ¬ index b t < n → kern b t = pure ()) :
    Runs (vecGrid n) 512 (launch kern m) fun s => (∀ i, s .v i = if i < n then f m.val i else m.val .v i) ∧ ∀ a, a ≠ .v → s a = m.val a := by
  refine (entry_runs (n := n) (st := 0) (act := fun j => j < n) (f := f) (fun j hj => ⟨by omega, by omega⟩) (fun b t h => ?_) hidle).mono fun s h => ⟨fun i => ?_, h.2.2⟩
  · exact (hact b t h).congr fun a i => ⟨fun h => ⟨h.1, by omega⟩, fun h => ⟨h.1, by omega⟩⟩
  · by_cases hi : i < n
    · rw [if_pos hi, h.1 i (full_iff.2 hi)]
    · rw [if_neg hi, h.2.1 i fun hc => hi (full_iff.1 hc)]

theorem own_upd {s : Vals α} {f : Vals α → Nat → α} {j : Nat} {x : α} (hx : x = f s j) :
    (∀ a i, (a = .v ∧ i = j) → upd s .v j x a i = setV f s a i) ∧ ∀ a i, ¬ (a = Arr.v ∧ i = j) → upd s .v j x a i = s a i := by
  refine ⟨fun a i h => ?_, fun a i h => upd_other _ _ h⟩
  obtain ⟨rfl, rfl⟩ := h
  rw [upd_same, hx]
  exact (if_pos rfl).symm

theorem C63_kernel_set_value {val : α} (hv : n ≤ m.len .v) :
    Runs (vecGrid n) 512 (launch (setValueK n val) m) fun s => (∀ i, s .v i = if i < n then val else m.val .v i) ∧ ∀ a, a ≠ .v → s a = m.val a := by
  refine full_runs (f := fun _ _ => val) (fun b t h => ?_) fun b t h => by unfold setValueK; rw [if_neg (by omega)]
  unfold setValueK
  rw [if_pos (by omega)]
  exact ⟨safeP_wr ⟨by omega, by omega⟩ ⟨rfl, by omega⟩, fun s => ⟨_, big_wr _ _ _ _, own_upd rfl⟩⟩

theorem C63_kernel_scale {alpha : α} (hv : n ≤ m.len .v) :
    Runs (vecGrid n) 512 (launch (scaleValueK alpha n) m) fun s => (∀ i, s .v i = if i < n then alpha * m.val .v i else m.val .v i) ∧ ∀ a, a ≠ .v → s a = m.val a := by
  refine full_runs (f := fun s i => alpha * s .v i) (fun b t h => ?_) fun b t h => by unfold scaleValueK; rw [if_neg (by omega)]
  unfold scaleValueK
  rw [if_pos (by omega)]
  exact ⟨safeP_bind (safeP_rd ⟨by omega, by omega⟩ (.inl ⟨rfl, by omega⟩)) fun x => safeP_wr ⟨by omega, by omega⟩ ⟨rfl, by omega⟩,
    fun s => ⟨_, big_bind (big_rd _ _ _) (big_wr _ _ _ _), own_upd (f := fun s i => alpha * s .v i) (mul_comm _ _)⟩⟩

theorem C63_kernel_reciprocal {big : α → Bool} {inv : α → α} (hv : n ≤ m.len .v) :
    Runs (vecGrid n) 512 (launch (rcpValueK big inv n) m) fun s =>
      (∀ i, s .v i = if i < n then (if big (m.val .v i) = true then inv (m.val .v i) else m.val .v i) else m.val .v i) ∧ ∀ a, a ≠ .v → s a = m.val a := by
  refine full_runs (f := fun s i => if big (s .v i) = true then inv (s .v i) else s .v i) (fun b t h => ?_) fun b t h => by unfold rcpValueK; rw [if_neg (by omega)]
  unfold rcpValueK
  rw [if_pos (by omega)]
  refine ⟨safeP_bind (safeP_rd ⟨by omega, by omega⟩ (.inl ⟨rfl, by omega⟩)) fun x => ?_, fun s => ?_⟩
  · split
    · exact safeP_bind (safeP_rd ⟨by omega, by omega⟩ (.inl ⟨rfl, by omega⟩)) fun x => safeP_wr ⟨by omega, by omega⟩ ⟨rfl, by omega⟩
    · exact safeP_pure ()
  · by_cases hb : big (s .v (index b t)) = true
    · refine ⟨_, big_bind (big_rd _ _ _) (y := ()) (s'' := upd s .v (index b t) (inv (s .v (index b t)))) ?_, own_upd ?_⟩
      · show Big (if big (s .v (index b t)) = true then _ else _) _ _ _
        rw [if_pos hb]
        exact big_bind (big_rd _ _ _) (big_wr _ _ _ _)
      · rw [if_pos hb]
    · refine ⟨s, big_bind (big_rd _ _ _) (y := ()) ?_, fun a i hai => ?_, fun _ _ _ => rfl⟩
      · show Big (if big (s .v (index b t)) = true then _ else _) _ _ _
        rw [if_neg hb]
        exact big_pure () s
      · obtain ⟨rfl, rfl⟩ := hai
        show _ = if Arr.v = .v then (if big (s .v (index b t)) = true then _ else _) else _
        rw [if_pos rfl, if_neg hb]

theorem C63_kernel_axpy {alpha : α} (hv : n ≤ m.len .v) (hu : n ≤ m.len .u) :
    Runs (vecGrid n) 512 (launch (axpyValueK alpha n) m) fun s =>
      (∀ i, s .v i = if i < n then alpha * m.val .u i + m.val .v i else m.val .v i) ∧ ∀ a, a ≠ .v → s a = m.val a := by
  refine full_runs (f := fun s i => alpha * s .u i + s .v i) (fun b t h => ?_) fun b t h => by unfold axpyValueK; rw [if_neg (by omega)]
  unfold axpyValueK
  rw [if_pos (by omega)]
  exact ⟨safeP_bind (safeP_rd ⟨by omega, by omega⟩ (.inl ⟨rfl, by omega⟩)) fun y => safeP_bind (safeP_rd ⟨by omega, by omega⟩ (.inr (by simp))) fun x =>
      safeP_wr ⟨by omega, by omega⟩ ⟨rfl, by omega⟩,
    fun s => ⟨_, big_bind (big_rd _ _ _) (big_bind (big_rd _ _ _) (big_wr _ _ _ _)), own_upd (f := fun s i => alpha * s .u i + s .v i) (add_comm _ _)⟩⟩

theorem C63_kernel_axpby {alpha beta : α} (hv : n ≤ m.len .v) (hu : n ≤ m.len .u) :
    Runs (vecGrid n) 512 (launch (axpbyValueK alpha beta n) m) fun s =>
      (∀ i, s .v i = if i < n then alpha * m.val .u i + beta * m.val .v i else m.val .v i) ∧ ∀ a, a ≠ .v → s a = m.val a := by
  refine full_runs (f := fun s i => alpha * s .u i + beta * s .v i) (fun b t h => ?_) fun b t h => by unfold axpbyValueK; rw [if_neg (by omega)]
  unfold axpbyValueK
  rw [if_pos (by omega)]
  refine ⟨safeP_bind (safeP_rd ⟨by omega, by omega⟩ (.inl ⟨rfl, by omega⟩)) fun y => safeP_bind (safeP_wr ⟨by omega, by omega⟩ ⟨rfl, by omega⟩) fun _ =>
      safeP_bind (safeP_rd ⟨by omega, by omega⟩ (.inl ⟨rfl, by omega⟩)) fun y => safeP_bind (safeP_rd ⟨by omega, by omega⟩ (.inr (by simp))) fun x =>
      safeP_wr ⟨by omega, by omega⟩ ⟨rfl, by omega⟩,
    fun s => ⟨_, big_bind (big_rd _ _ _) (big_bind (big_wr _ _ _ _) (big_bind (big_rd _ _ _) (big_bind (big_rd _ _ _) (big_wr _ _ _ _)))), fun a i h => ?_, fun a i h => ?_⟩⟩
  · obtain ⟨rfl, rfl⟩ := h
    show upd _ _ (index b t) _ _ _ = if Arr.v = .v then alpha * s .u (index b t) + beta * s .v (index b t) else _
    rw [if_pos rfl, upd_same]
    show upd s .v (index b t) _ .v (index b t) + alpha * upd s .v (index b t) _ .u (index b t) = _
    rw [upd_same, upd_other _ _ (by simp)]
    exact add_comm _ _
  · exact (upd_other _ _ h).trans (upd_other _ _ h)

theorem C63_kernel_mult {ax ay : Arr} (hv : n ≤ m.len .v) (hx : n ≤ m.len ax) (hy : n ≤ m.len ay) :
    Runs (vecGrid n) 512 (launch (pointwiseMultValueK ax ay n) m) fun s =>
      (∀ i, s .v i = if i < n then m.val ax i * m.val ay i else m.val .v i) ∧ ∀ a, a ≠ .v → s a = m.val a := by
  refine full_runs (f := fun s i => s ax i * s ay i) (fun b t h => ?_) fun b t h => by unfold pointwiseMultValueK; rw [if_neg (by omega)]
  unfold pointwiseMultValueK
  rw [if_pos (by omega)]
  have hown : ∀ a : Arr, (a = .v ∧ ((index b t : Nat) : Int).toNat = index b t) ∨ a ≠ .v := fun a => by
    by_cases ha : a = .v
    · exact .inl ⟨ha, by omega⟩
    · exact .inr ha
  exact ⟨safeP_bind (safeP_rd ⟨by omega, by omega⟩ (hown ax)) fun x => safeP_bind (safeP_rd ⟨by omega, by omega⟩ (hown ay)) fun y =>
      safeP_wr ⟨by omega, by omega⟩ ⟨rfl, by omega⟩,
    fun s => ⟨_, big_bind (big_rd _ _ _) (big_bind (big_rd _ _ _) (big_wr _ _ _ _)), own_upd (f := fun s i => s ax i * s ay i) rfl⟩⟩

end

section
variable {start stop step : Int} {m : Mem α}

open DevVec (InWindow)

theorem window_iff (h0 : 0 ≤ start) (hs : 0 < step) {i : Nat} :
    (∃ j : Nat, ((j : Int) < stop - start ∧ (j : Int).tmod step = 0) ∧ (i : Int) = start + j) ↔ InWindow start stop step i := by
  constructor
  · rintro ⟨j, ⟨h1, h2⟩, h3⟩
    obtain ⟨k, hk⟩ := Int.dvd_of_tmod_eq_zero h2
    have hk0 : 0 ≤ k := by
      by_contra hc
      have : step * k < 0 := Int.mul_neg_of_pos_of_neg hs (by omega)
      omega
    exact ⟨k.toNat, by rw [Int.toNat_of_nonneg hk0, mul_comm, ← hk]; exact h3, by omega⟩
  · rintro ⟨k, h1, h2⟩
    have hp : 0 ≤ (k : Int) * step := Int.mul_nonneg (Int.natCast_nonneg k) (by omega)
    have hcast : (((k : Int) * step).toNat : Int) = (k : Int) * step := Int.toNat_of_nonneg hp
    refine ⟨((k : Int) * step).toNat, ⟨?_, ?_⟩, ?_⟩
    · rw [hcast]; omega
    · rw [hcast]; exact Int.mul_tmod_left _ _
    · rw [hcast]; exact h1

open Classical in
/-- Kernels on windows. -/
theorem window_runs {kern : Nat → Nat → K α Unit} {f : Vals α → Nat → α} (h0 : 0 ≤ start) (hs : 0 < step)
    (hact : ∀ b t, ((index b t : Nat) : Int) < stop - start → Piece (fun a i => a = .v ∧ (i : Int) = start + index b t) (fun a _ => a ≠ .v) m.len (setV f) (kern b t) ∨
      ((index b t : Nat) : Int).tmod step ≠ 0)
    (hidle : ∀ b t, ¬ (((index b t : Nat) : Int) < stop - start ∧ ((index b t : Nat) : Int).tmod step = 0) → kern b t = pure ()) :
    Runs (vecGrid (stop - start)) 512 (launch kern m) fun s => (∀ i, s .v i = if InWindow start stop step i then f m.val i else m.val .v i) ∧ ∀ a, a ≠ .v → s a = m.val a := by
  refine (entry_runs (n := stop - start) (st := start) (act := fun j => (j : Int) < stop - start ∧ (j : Int).tmod step = 0) (f := f) (fun j hj => ⟨by omega, hj.1⟩)
    (fun b t h => (hact b t h.1).resolve_right (fun hc => hc h.2)) hidle).mono fun s h => ⟨fun i => ?_, h.2.2⟩
  by_cases hi : InWindow start stop step i
  · rw [if_pos hi, h.1 i ((window_iff h0 hs).2 hi)]
  · rw [if_neg hi, h.2.1 i fun hc => hi ((window_iff h0 hs).1 hc)]

theorem own_updI {s : Vals α} {f : Vals α → Nat → α} {j : Int} (hj : 0 ≤ j) {x : α} (hx : x = f s j.toNat) :
    (∀ (a : Arr) (i : Nat), (a = .v ∧ (i : Int) = j) → upd s .v j.toNat x a i = setV f s a i) ∧ ∀ (a : Arr) (i : Nat), ¬ (a = .v ∧ (i : Int) = j) → upd s .v j.toNat x a i = s a i := by
  refine ⟨fun a i h => ?_, fun a i h => upd_other _ _ fun hc => h ⟨hc.1, by omega⟩⟩
  obtain ⟨rfl, h⟩ := h
  obtain rfl : i = j.toNat := by omega
  rw [upd_same, hx]
  exact (if_pos rfl).symm

open Classical in
theorem C63_kernel_set_value_strided {val : α} (h0 : 0 ≤ start) (hs : 0 < step) (hv : stop ≤ m.len .v) :
    Runs (vecGrid (stop - start)) 512 (launch (setValueStridedK start stop step val) m) fun s =>
      (∀ i, s .v i = if InWindow start stop step i then val else m.val .v i) ∧ ∀ a, a ≠ .v → s a = m.val a := by
  refine window_runs (f := fun _ _ => val) h0 hs (fun b t h => ?_) fun b t h => ?_
  · by_cases hm : ((index b t : Nat) : Int).tmod step = 0
    · refine .inl ?_
      unfold setValueStridedK
      rw [if_pos h, if_pos hm]
      exact ⟨safeP_wr ⟨by omega, by omega⟩ ⟨rfl, by omega⟩, fun s => ⟨_, big_wr _ _ _ _, own_updI (by omega) rfl⟩⟩
    · exact .inr hm
  · unfold setValueStridedK
    by_cases h1 : ((index b t : Nat) : Int) < stop - start
    · rw [if_pos h1, if_neg fun hm => h ⟨h1, hm⟩]
    · rw [if_neg h1]

open Classical in
theorem C63_kernel_copy_strided (h0 : 0 ≤ start) (hs : 0 < step) (hv : stop ≤ m.len .v) (hu : stop ≤ m.len .u) :
    Runs (vecGrid (stop - start)) 512 (launch (copyStridedK start stop step) m) fun s =>
      (∀ i, s .v i = if InWindow start stop step i then m.val .u i else m.val .v i) ∧ ∀ a, a ≠ .v → s a = m.val a := by
  refine window_runs (f := fun s i => s .u i) h0 hs (fun b t h => ?_) fun b t h => ?_
  · by_cases hm : ((index b t : Nat) : Int).tmod step = 0
    · refine .inl ?_
      unfold copyStridedK
      rw [if_pos h, if_pos hm]
      exact ⟨safeP_bind (safeP_rd ⟨by omega, by omega⟩ (.inr (by simp))) fun x => safeP_wr ⟨by omega, by omega⟩ ⟨rfl, by omega⟩,
        fun s => ⟨_, big_bind (big_rd _ _ _) (big_wr _ _ _ _), own_updI (by omega) rfl⟩⟩
    · exact .inr hm
  · unfold copyStridedK
    by_cases h1 : ((index b t : Nat) : Int) < stop - start
    · rw [if_pos h1, if_neg fun hm => h ⟨h1, hm⟩]
    · rw [if_neg h1]

/-- A window of a device array of 1000 entries, with more than one block of threads. -/
example : Runs (vecGrid (990 - 10)) 512 (launch (setValueStridedK (α := Int) 10 990 7 5) ⟨fun _ => 1000, fun _ i => i⟩) fun s =>
    s .v 17 = 5 ∧ s .v 18 = 18 ∧ s .v 990 = 990 := by
  classical
  refine (C63_kernel_set_value_strided (α := Int) (by decide) (by decide) (by decide)).mono fun s h => ?_
  rw [h.1, h.1, h.1]
  refine ⟨if_pos ⟨1, by decide, by decide⟩, if_neg ?_, if_neg ?_⟩
  · rintro ⟨k, hk, -⟩
    omega
  · rintro ⟨k, -, hk⟩
    omega

example : vecGrid (990 - 10) = 2 := by decide

end

end Verif.Gpu
