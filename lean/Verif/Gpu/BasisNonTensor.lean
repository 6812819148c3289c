import Verif.Gpu.Basis
import Verif.Gpu.Pieces
import Verif.Gpu.BasisKernel

/-!
# The non-tensor kernels and the kernels for weights on every schedule (helper lemmas)
-/

namespace Verif.Gpu
open Finset (range)

variable {α : Type} [CommRing α]

/-! ## Pieces of the kernels -/

/-- A loop of writes to different entries. -/
theorem big_writes {l : List Nat} (hd : l.Nodup) {idx : Nat → Nat} {x : Nat → α} (s : Vals α)
    (hinj : ∀ d ∈ l, ∀ d' ∈ l, idx d = idx d' → d = d') :
    ∃ s', Big (forIn' l (fun d _ => wr .v ((idx d : Nat) : Int) (x d)) ()) s () s' ∧
      (∀ d ∈ l, s' .v (idx d) = x d) ∧ ∀ a i, (∀ d ∈ l, ¬ (a = .v ∧ i = idx d)) → s' a i = s a i := by
  induction l generalizing s with
  | nil => exact ⟨s, big_pure () s, fun d hd => by simp at hd, fun _ _ _ => rfl⟩
  | cons d l ih =>
    obtain ⟨hn, hd'⟩ := List.nodup_cons.mp hd
    obtain ⟨s', h1, h2, h3⟩ := ih hd' (upd s .v (idx d) (x d)) fun y hy z hz =>
      hinj y (List.mem_cons_of_mem _ hy) z (List.mem_cons_of_mem _ hz)
    refine ⟨s', big_bind (big_wr _ _ _ _) h1, fun y hy => ?_, fun a i h => ?_⟩
    · rcases List.mem_cons.mp hy with rfl | hy
      · rw [h3 .v (idx y) fun z hz he => ?_, upd_same]
        exact hn (hinj y (List.mem_cons_self ..) z (List.mem_cons_of_mem _ hz) he.2 ▸ hz)
      · exact h2 y hy
    · rw [h3 a i fun z hz => h z (List.mem_cons_of_mem _ hz), upd_other]
      exact h d (List.mem_cons_self ..)

theorem setAt_foldl (n : Nat) (f : Nat → α) (r : Nat → α) :
    (List.range n).foldl (fun r d => setAt r d (r d + f d)) r = fun d => if d < n then r d + f d else r d := by
  induction n with
  | zero => simp
  | succ n ih =>
    rw [List.range_succ, List.foldl_append, ih, List.foldl_cons, List.foldl_nil]
    funext d
    unfold setAt
    by_cases h : d = n
    · subst h
      simp
    · by_cases h2 : d < n
      · rw [if_neg h, if_pos (show d < n + 1 by omega)]
        exact if_pos h2
      · rw [if_neg h, if_neg (show ¬ d < n + 1 by omega)]
        exact if_neg h2

theorem rows_foldl (P n : Nat) (f : Nat → Nat → α) :
    (List.range P).foldl (fun (r : Nat → α) i => fun d => if d < n then r d + f i d else r d) (fun _ => 0) =
      fun d => if d < n then ∑ i ∈ range P, f i d else 0 := by
  induction P with
  | zero => simp
  | succ P ih =>
    rw [List.range_succ, List.foldl_append, ih, List.foldl_cons, List.foldl_nil]
    funext d
    by_cases h : d < n
    · simp only [if_pos h]
      rw [Finset.sum_range_succ]
    · simp only [if_neg h]

/-- The accumulators of `Contract`. -/
theorem big_rows (P qc uo : Nat) (row : Nat → Nat → Nat) (s : Vals α) :
    Big (forN P (fun i (r : Nat → α) => (do
        let val ← rd .u ((uo + i : Nat) : Int)
        forN qc (fun d r => do
          let x ← rd (.table 0) ((row i d : Nat) : Int)
          pure (setAt r d (r d + x * val))) r : K α (Nat → α))) (fun _ => 0)) s
      (fun d => if d < qc then ∑ i ∈ range P, s (.table 0) (row i d) * s .u (uo + i) else 0) s := by
  have h := big_forIn_pure (l := List.range P) (s := s) (body := fun i (r : Nat → α) => (do
        let val ← rd .u ((uo + i : Nat) : Int)
        forN qc (fun d r => do
          let x ← rd (.table 0) ((row i d : Nat) : Int)
          pure (setAt r d (r d + x * val))) r : K α (Nat → α)))
    (g := fun i r => fun d => if d < qc then r d + s (.table 0) (row i d) * s .u (uo + i) else r d)
    (fun i _ r => by
      refine big_bind (big_rd _ _ _) ?_
      have h := big_forIn_pure (l := List.range qc) (s := s) (body := fun d (r : Nat → α) => (do
          let x ← rd (.table 0) ((row i d : Nat) : Int)
          pure (setAt r d (r d + x * s .u (uo + i))) : K α (Nat → α)))
        (g := fun d r => setAt r d (r d + s (.table 0) (row i d) * s .u (uo + i)))
        (fun d _ r => big_bind (big_rd _ _ _) (big_pure _ _)) r
      rw [setAt_foldl qc (fun d => s (.table 0) (row i d) * s .u (uo + i)) r] at h
      exact h) (fun _ => 0)
  rw [rows_foldl P qc (fun i d => s (.table 0) (row i d) * s .u (uo + i))] at h
  exact h

/-- The accumulator of `ContractTranspose`. -/
theorem big_cols (qc Q : Nat) (row : Nat → Nat → Nat) (uo : Nat → Nat) (s : Vals α) :
    Big (forN qc (fun d (r : α) => forN Q (fun i r => (do
        let x ← rd (.table 0) ((row i d : Nat) : Int)
        let y ← rd .u ((uo d + i : Nat) : Int)
        pure (r + x * y) : K α α)) r) 0) s
      (∑ d ∈ range qc, ∑ i ∈ range Q, s (.table 0) (row i d) * s .u (uo d + i)) s := by
  have h := big_forIn_pure (l := List.range qc) (s := s) (body := fun d (r : α) => forN Q (fun i r => (do
        let x ← rd (.table 0) ((row i d : Nat) : Int)
        let y ← rd .u ((uo d + i : Nat) : Int)
        pure (r + x * y) : K α α)) r)
    (g := fun d r => r + ∑ i ∈ range Q, s (.table 0) (row i d) * s .u (uo d + i))
    (fun d _ r => by
      have h := big_forIn_pure (l := List.range Q) (s := s) (body := fun i (r : α) => (do
          let x ← rd (.table 0) ((row i d : Nat) : Int)
          let y ← rd .u ((uo d + i : Nat) : Int)
          pure (r + x * y) : K α α))
        (g := fun i r => r + s (.table 0) (row i d) * s .u (uo d + i))
        (fun i _ r => big_bind (big_rd _ _ _) (big_bind (big_rd _ _ _) (big_pure _ _))) r
      rw [foldl_sum Q (fun i => s (.table 0) (row i d) * s .u (uo d + i)) r] at h
      exact h) 0
  rw [foldl_sum qc (fun d => ∑ i ∈ range Q, s (.table 0) (row i d) * s .u (uo d + i)) 0, zero_add] at h
  exact h

/-! ## Positions -/

/-- Element, component, quadrature component of an entry of a vector with `N` entries per element. -/
structure Dims where
  (ne nc qc P Q : Nat)

/-- Entry of the product: what `Contract` computes for the entry `i` of the output. -/
def rowRes (D : Dims) (s : Vals α) (i : Nat) : α :=
  ∑ n ∈ range D.P, s (.table 0) (n + i % D.Q * D.P + i / D.Q / D.ne / D.nc * D.P * D.Q) *
    s .u (i / D.Q % D.ne * D.P + i / D.Q / D.ne % D.nc * (D.P * D.ne) + n)

/-- Entry of the product with the transpose: what `ContractTranspose` adds to the entry `i` of the output. -/
def colRes (D : Dims) (s : Vals α) (i : Nat) : α :=
  ∑ d ∈ range D.qc, ∑ q ∈ range D.Q, s (.table 0) (i % D.P + q * D.P + d * D.P * D.Q) *
    s .u (i / D.P % D.ne * D.Q + i / D.P / D.ne * (D.Q * D.ne) + d * (D.nc * D.Q * D.ne) + q)

/-- Entry written by `Contract`. -/
def rowPos (D : Dims) (e c d x : Nat) : Nat := e * D.Q + c * (D.Q * D.ne) + d * (D.nc * D.Q * D.ne) + x

theorem rowPos_eq (D : Dims) (e c d x : Nat) : rowPos D e c d x = ((d * D.nc + c) * D.ne + e) * D.Q + x := by
  unfold rowPos
  ring

theorem rowPos_dec {D : Dims} {e c x : Nat} (d : Nat) (he : e < D.ne) (hc : c < D.nc) (hx : x < D.Q) :
    rowPos D e c d x % D.Q = x ∧ rowPos D e c d x / D.Q % D.ne = e ∧ rowPos D e c d x / D.Q / D.ne % D.nc = c ∧
      rowPos D e c d x / D.Q / D.ne / D.nc = d := by
  rw [rowPos_eq, mod_enc hx, div_enc hx, mod_enc he, div_enc he, mod_enc hc, div_enc hc]
  exact ⟨rfl, rfl, rfl, rfl⟩

theorem rowPos_inj {D : Dims} {e c d x e' c' d' x' : Nat} (he : e < D.ne) (hc : c < D.nc) (hx : x < D.Q) (he' : e' < D.ne)
    (hc' : c' < D.nc) (hx' : x' < D.Q) (h : rowPos D e c d x = rowPos D e' c' d' x') :
    e = e' ∧ c = c' ∧ d = d' ∧ x = x' := by
  obtain ⟨h1, h2, h3, h4⟩ := rowPos_dec d he hc hx
  obtain ⟨g1, g2, g3, g4⟩ := rowPos_dec d' he' hc' hx'
  rw [h] at h1 h2 h3 h4
  exact ⟨h2.symm.trans g2, h3.symm.trans g3, h4.symm.trans g4, h1.symm.trans g1⟩

theorem rowPos_lt {D : Dims} {e c d x : Nat} (he : e < D.ne) (hc : c < D.nc) (hd : d < D.qc) (hx : x < D.Q) :
    rowPos D e c d x < D.qc * D.nc * D.ne * D.Q := by
  rw [rowPos_eq]
  exact enc_lt (enc_lt (enc_lt hd hc) he) hx

/-- Entry written by `ContractTranspose`. -/
def colPos (D : Dims) (e c x : Nat) : Nat := e * D.P + c * (D.P * D.ne) + x

theorem colPos_eq (D : Dims) (e c x : Nat) : colPos D e c x = (c * D.ne + e) * D.P + x := by
  unfold colPos
  ring

theorem colPos_dec {D : Dims} {e x : Nat} (c : Nat) (he : e < D.ne) (hx : x < D.P) :
    colPos D e c x % D.P = x ∧ colPos D e c x / D.P % D.ne = e ∧ colPos D e c x / D.P / D.ne = c := by
  rw [colPos_eq, mod_enc hx, div_enc hx, mod_enc he, div_enc he]
  exact ⟨rfl, rfl, rfl⟩

theorem colPos_inj {D : Dims} {e c x e' c' x' : Nat} (he : e < D.ne) (hx : x < D.P) (he' : e' < D.ne) (hx' : x' < D.P)
    (h : colPos D e c x = colPos D e' c' x') : e = e' ∧ c = c' ∧ x = x' := by
  obtain ⟨h1, h2, h3⟩ := colPos_dec c he hx
  obtain ⟨g1, g2, g3⟩ := colPos_dec c' he' hx'
  rw [h] at h1 h2 h3
  exact ⟨h2.symm.trans g2, h3.symm.trans g3, h1.symm.trans g1⟩

theorem colPos_lt {D : Dims} {e c x : Nat} (he : e < D.ne) (hc : c < D.nc) (hx : x < D.P) :
    colPos D e c x < D.nc * D.ne * D.P := by
  rw [colPos_eq]
  exact enc_lt (enc_lt hc he) hx

/-! ## `Contract` -/

/-- Entries read by everybody. -/
def roUT (a : Arr) (_ : Nat) : Prop := a = .u ∨ ∃ j, a = .table j

theorem rowRes_loc {D : Dims} {s s' : Vals α} (h : ∀ a i, roUT a i → s a i = s' a i) (i : Nat) :
    rowRes D s i = rowRes D s' i := by
  unfold rowRes
  exact Finset.sum_congr rfl fun n _ => by rw [h _ _ (.inr ⟨0, rfl⟩), h _ _ (.inl rfl)]

theorem colRes_loc {D : Dims} {s s' : Vals α} (h : ∀ a i, roUT a i → s a i = s' a i) (i : Nat) :
    colRes D s i = colRes D s' i := by
  unfold colRes
  exact Finset.sum_congr rfl fun d _ => Finset.sum_congr rfl fun n _ => by
    rw [h _ _ (.inr ⟨0, rfl⟩), h _ _ (.inl rfl)]

/-- The contents `Contract` leaves. -/
def setV (f : Vals α → Nat → α) (s : Vals α) (a : Arr) (i : Nat) : α := if a = .v then f s i else s a i

section
variable {D : Dims} {len : Arr → Nat}

theorem contract_safe {own : Arr → Nat → Prop} {e x : Nat} (he : e < D.ne) (hx : x < D.Q)
    (ht : D.qc * D.Q * D.P ≤ len (.table 0)) (hu : D.nc * D.ne * D.P ≤ len .u)
    (hv : D.qc * D.nc * D.ne * D.Q ≤ len .v) (ho : ∀ c < D.nc, ∀ d < D.qc, own .v (rowPos D e c d x)) {c : Nat}
    (hc : c < D.nc) : SafeP own roUT len (do
      let r ← forN D.P (fun i r => do
        let val ← rd .u ((e * D.P + c * (D.P * D.ne) + i : Nat) : Int)
        forN D.qc (fun d r => do
          let x ← rd (.table 0) ((i + x * D.P + d * D.P * D.Q : Nat) : Int)
          pure (setAt r d (r d + x * val))) r) (fun _ => 0)
      forN D.qc (fun d _ => wr .v ((e * D.Q + c * (D.Q * D.ne) + d * (D.nc * D.Q * D.ne) + x : Nat) : Int) (r d)) ()
      : K α Unit) := by
  refine safeP_bind (safeP_forN (fun i hi r => safeP_bind (safeP_rd ?_ (.inr (.inl rfl))) fun val =>
    safeP_forN (fun d hd r => safeP_bind (safeP_rd ?_ (.inr (.inr ⟨0, rfl⟩))) fun y => safeP_pure _) _) _) fun r =>
      safeP_forN (fun d hd _ => safeP_wr ?_ ?_) _
  · have := colPos_lt (D := D) he hc hi
    unfold colPos at this
    exact ⟨by omega, by omega⟩
  · have := enc_lt (enc_lt hd hx) hi
    have e1 : (d * D.Q + x) * D.P + i = i + x * D.P + d * D.P * D.Q := by ring
    exact ⟨by omega, by omega⟩
  · have := rowPos_lt (D := D) he hc hd hx
    unfold rowPos at this
    exact ⟨by omega, by omega⟩
  · exact ho c hc d hd

theorem contract_big {e x : Nat} (he : e < D.ne) (hx : x < D.Q) {c : Nat} (hc : c < D.nc) (s : Vals α) :
    ∃ s', Big (do
      let r ← forN D.P (fun i r => do
        let val ← rd .u ((e * D.P + c * (D.P * D.ne) + i : Nat) : Int)
        forN D.qc (fun d r => do
          let x ← rd (.table 0) ((i + x * D.P + d * D.P * D.Q : Nat) : Int)
          pure (setAt r d (r d + x * val))) r) (fun _ => 0)
      forN D.qc (fun d _ => wr .v ((e * D.Q + c * (D.Q * D.ne) + d * (D.nc * D.Q * D.ne) + x : Nat) : Int) (r d)) ()
      : K α Unit) s () s' ∧
      (∀ a i, (∃ d < D.qc, a = .v ∧ i = rowPos D e c d x) → s' a i = setV (rowRes D) s a i) ∧
      ∀ a i, ¬ (∃ d < D.qc, a = .v ∧ i = rowPos D e c d x) → s' a i = s a i := by
  have h1 := big_rows D.P D.qc (e * D.P + c * (D.P * D.ne)) (fun i d => i + x * D.P + d * D.P * D.Q) s
  obtain ⟨s', h2, h3, h4⟩ := big_writes (l := List.range D.qc) List.nodup_range (idx := fun d => rowPos D e c d x)
    (x := fun d => if d < D.qc then ∑ i ∈ range D.P, s (.table 0) (i + x * D.P + d * D.P * D.Q) *
      s .u (e * D.P + c * (D.P * D.ne) + i) else 0) s
    (fun d _ d' _ h => (rowPos_inj he hc hx he hc hx h).2.2.1)
  refine ⟨s', big_bind h1 h2, ?_, fun a i h => h4 a i fun d hd ho => h ⟨d, List.mem_range.mp hd, ho⟩⟩
  rintro a i ⟨d, hd, rfl, rfl⟩
  rw [h3 d (List.mem_range.mpr hd), if_pos hd]
  unfold setV rowRes
  obtain ⟨g1, g2, g3, g4⟩ := rowPos_dec d he hc hx
  rw [if_pos rfl, g1, g2, g3, g4]

/-- The entries `Contract` writes for element `e` in thread `x`. -/
def rowOwn (D : Dims) (x e : Nat) (a : Arr) (i : Nat) : Prop := ∃ c < D.nc, ∃ d < D.qc, a = .v ∧ i = rowPos D e c d x

omit [CommRing α] in
theorem setV_loc {f : Vals α → Nat → α} {o : Arr → Nat → Prop} (hf : ∀ s s' : Vals α,
    (∀ a i, roUT a i → s a i = s' a i) → ∀ i, f s i = f s' i) {s s' : Vals α}
    (h : ∀ a i, o a i ∨ roUT a i → s a i = s' a i) : ∀ a i, o a i → setV f s a i = setV f s' a i := by
  intro a i ho
  unfold setV
  rw [hf s s' fun a i hr => h a i (.inr hr), h a i (.inl ho)]

theorem contract_piece {e x : Nat} (he : e < D.ne) (hx : x < D.Q)
    (ht : D.qc * D.Q * D.P ≤ len (.table 0)) (hu : D.nc * D.ne * D.P ≤ len .u)
    (hv : D.qc * D.nc * D.ne * D.Q ≤ len .v) {own : Arr → Nat → Prop} (ho : ∀ a i, rowOwn D x e a i → own a i) :
    SafeP own roUT len (contractDev (α := α) D.nc D.qc D.P D.Q e D.P D.Q (D.P * D.ne) (D.Q * D.ne) (D.nc * D.Q * D.ne) x) ∧
    ∀ s : Vals α, ∃ s', Big (contractDev D.nc D.qc D.P D.Q e D.P D.Q (D.P * D.ne) (D.Q * D.ne) (D.nc * D.Q * D.ne) x) s () s' ∧
      (∀ a i, rowOwn D x e a i → s' a i = setV (rowRes D) s a i) ∧ ∀ a i, ¬ rowOwn D x e a i → s' a i = s a i := by
  unfold contractDev
  refine ⟨safeP_forN (fun c hc _ => contract_safe he hx ht hu hv
    (fun c hc d hd => ho _ _ ⟨c, hc, d, hd, rfl, rfl⟩) hc) (), ?_⟩
  have hp := (piece_forIn (len := len) (ro := roUT) (res := setV (rowRes (α := α) D)) (l := List.range D.nc)
    (o := fun c a i => ∃ d < D.qc, a = .v ∧ i = rowPos D e c d x) List.nodup_range
    (fun c hc => contract_safe he hx ht hu hv
      (fun c hc d hd => ⟨c, List.mem_range.mpr hc, d, hd, rfl, rfl⟩) (List.mem_range.mp hc))
    (fun c hc s => contract_big he hx (List.mem_range.mp hc) s)
    (fun c hc c' hc' a i h h' => by
      obtain ⟨d, hd, -, e1⟩ := h
      obtain ⟨d', hd', -, e2⟩ := h'
      exact (rowPos_inj he (List.mem_range.mp hc) hx he (List.mem_range.mp hc') hx (e1.symm.trans e2)).2.1)
    (fun c hc a i h hr => by
      obtain ⟨d, hd, rfl, -⟩ := h
      rcases hr with h | ⟨j, h⟩ <;> cases h)
    (fun c hc s s' h => setV_loc (fun s s' => rowRes_loc) h)).congr (own' := rowOwn D x e) fun a i => by
      simp only [rowOwn, List.mem_range]
  exact fun s => hp.big s

theorem contractT_piece {e x : Nat} (he : e < D.ne) (hx : x < D.P)
    (ht : D.qc * D.Q * D.P ≤ len (.table 0)) (hu : D.qc * D.nc * D.ne * D.Q ≤ len .u)
    (hv : D.nc * D.ne * D.P ≤ len .v) {own : Arr → Nat → Prop} (ho : ∀ c < D.nc, own .v (colPos D e c x)) :
    SafeP own roUT len (contractTDev (α := α) D.nc D.qc D.P D.Q e D.Q D.P (D.Q * D.ne) (D.P * D.ne) (D.nc * D.Q * D.ne) x) ∧
    ∀ s : Vals α, ∃ s', Big (contractTDev D.nc D.qc D.P D.Q e D.Q D.P (D.Q * D.ne) (D.P * D.ne) (D.nc * D.Q * D.ne) x) s () s' ∧
      (∀ a i, (∃ c < D.nc, a = .v ∧ i = colPos D e c x) → s' a i = setV (fun s i => s .v i + colRes D s i) s a i) ∧
      ∀ a i, ¬ (∃ c < D.nc, a = .v ∧ i = colPos D e c x) → s' a i = s a i := by
  unfold contractTDev
  have hsafe : ∀ own : Arr → Nat → Prop, (∀ c < D.nc, own .v (colPos D e c x)) → ∀ c < D.nc, SafeP own roUT len (do
      let r ← forN D.qc (fun d r => do
        let uo := e * D.Q + c * (D.Q * D.ne) + d * (D.nc * D.Q * D.ne)
        forN D.Q (fun i r => do
          let y ← rd (.table 0) ((x + i * D.P + d * D.P * D.Q : Nat) : Int)
          let z ← rd .u ((uo + i : Nat) : Int)
          pure (r + y * z)) r) 0
      let z ← rd .v ((e * D.P + c * (D.P * D.ne) + x : Nat) : Int)
      wr .v ((e * D.P + c * (D.P * D.ne) + x : Nat) : Int) (z + r) : K α Unit) := by
    intro own ho c hc
    have hin : InB len .v ((e * D.P + c * (D.P * D.ne) + x : Nat) : Int) := by
      have := colPos_lt (D := D) he hc hx
      unfold colPos at this
      exact ⟨by omega, by omega⟩
    refine safeP_bind (safeP_forN (fun d hd r => safeP_forN (fun i hi r => safeP_bind
      (safeP_rd ?_ (.inr (.inr ⟨0, rfl⟩))) fun y => safeP_bind (safeP_rd ?_ (.inr (.inl rfl))) fun z => safeP_pure _) _) _)
      fun r => safeP_bind (safeP_rd hin (.inl (ho c hc))) fun z => safeP_wr hin (ho c hc)
    · have := enc_lt (enc_lt hd hi) hx
      have e1 : (d * D.Q + i) * D.P + x = x + i * D.P + d * D.P * D.Q := by ring
      exact ⟨by omega, by omega⟩
    · have := rowPos_lt (D := D) he hc hd hi
      unfold rowPos at this
      exact ⟨by omega, by omega⟩
  refine ⟨safeP_forN (fun c hc _ => hsafe own ho c hc) (), ?_⟩
  have hp := (piece_forIn (len := len) (ro := roUT) (res := setV (fun (s : Vals α) i => s .v i + colRes D s i))
    (l := List.range D.nc) (o := fun c a i => a = .v ∧ i = colPos D e c x) List.nodup_range
    (fun c hc => hsafe _ (fun c hc => ⟨c, List.mem_range.mpr hc, rfl, rfl⟩) c (List.mem_range.mp hc))
    (fun c hc s => by
      have h1 := big_cols D.qc D.Q (fun i d => x + i * D.P + d * D.P * D.Q)
        (fun d => e * D.Q + c * (D.Q * D.ne) + d * (D.nc * D.Q * D.ne)) s
      refine ⟨_, big_bind h1 (big_bind (big_rd _ _ _) (big_wr _ _ _ _)), ?_, fun a i h => upd_other _ _ h⟩
      rintro a i ⟨rfl, rfl⟩
      rw [show colPos D e c x = ((e * D.P + c * (D.P * D.ne) + x : Nat) : Int).toNat from rfl, upd_same]
      unfold setV
      show _ = if Arr.v = .v then s .v _ + colRes D s _ else _
      unfold colRes
      obtain ⟨g1, g2, g3⟩ := colPos_dec c he hx
      rw [show ((e * D.P + c * (D.P * D.ne) + x : Nat) : Int).toNat = colPos D e c x from rfl, if_pos rfl, g1, g2, g3])
    (fun c hc c' hc' a i h h' => (colPos_inj he hx he hx (h.2.symm.trans h'.2)).2.1)
    (fun c hc a i h hr => by
      obtain ⟨rfl, -⟩ := h
      rcases hr with h | ⟨j, h⟩ <;> cases h)
    (fun c hc s s' h a i ho => by
      obtain ⟨rfl, rfl⟩ := ho
      unfold setV
      rw [if_pos rfl, if_pos rfl]
      show s .v _ + _ = s' .v _ + _
      rw [h _ _ (.inl ⟨rfl, rfl⟩), colRes_loc (fun a i hr => h a i (.inr hr))])).congr
    (own' := fun a i => ∃ c < D.nc, a = .v ∧ i = colPos D e c x) fun a i => by
      simp only [List.mem_range]
  exact fun s => hp.big s

end

/-! ## Threads -/

theorem thread_dec {X Z t : Nat} (ht : t < X * Z) : t % X < X ∧ t / X < Z := by
  rw [Nat.mul_comm] at ht
  exact (dec_lt ht).symm

theorem thread_inj {X t t' : Nat} (h1 : t % X = t' % X) (h2 : t / X = t' / X) : t = t' := by
  rw [← dec_eq t X, ← dec_eq t' X, h1, h2]

section
variable {D : Dims} {m : Mem α} {G Z : Nat}

/-- `Interp` and `Deriv` of the non-tensor source. -/
theorem mat_runs (hG : 0 < G) (hZ : 0 < Z) (hQ : 0 < D.Q) (ht : D.qc * D.Q * D.P ≤ m.len (.table 0))
    (hu : D.nc * D.ne * D.P ≤ m.len .u) (hv : D.qc * D.nc * D.ne * D.Q ≤ m.len .v) :
    Runs G (D.Q * Z) (launch (matKernel D.nc D.qc D.P D.Q D.ne D.Q Z G) m) fun s =>
      (∀ e < D.ne, ∀ c < D.nc, ∀ d < D.qc, ∀ q < D.Q, s .v (rowPos D e c d q) = rowRes D m.val (rowPos D e c d q)) ∧
      (∀ i, D.qc * D.nc * D.ne * D.Q ≤ i → s .v i = m.val .v i) ∧ s .u = m.val .u := by
  have hB : 0 < D.Q * Z := Nat.mul_pos hQ hZ
  refine runs_pieces hB (fun b t a i => ∃ e ∈ strideList D.ne (Z * G) D.ne (b * Z + t / D.Q), rowOwn D (t % D.Q) e a i)
    roUT (setV (rowRes D)) (fun b hb t ht' => ?_) (fun b hb t ht b' hb' t' ht' a i h h' => ?_)
    (fun b hb t ht a i h hr => ?_) fun s h1 h2 => ⟨fun e he c hc d hd q hq => ?_, fun i hi => ?_, funext fun i => ?_⟩
  · obtain ⟨hx, hz⟩ := thread_dec ht'
    refine piece_forIn (l := strideList D.ne (Z * G) D.ne (b * Z + t / D.Q)) (o := rowOwn D (t % D.Q))
      (nodup_strideList (Nat.mul_pos hZ hG) _ _)
      (fun e he => (contract_piece ((mem_stride hb hz).mp he).1 hx ht hu hv fun a i h => ⟨e, he, h⟩).1)
      (fun e he s => (contract_piece (own := fun _ _ => True) ((mem_stride hb hz).mp he).1 hx ht hu hv
        fun a i h => trivial).2 s)
      (fun e he e' he' a i h h' => ?_) (fun e he a i h hr => ?_) (fun e he s s' h => setV_loc (fun s s' => rowRes_loc) h)
    · obtain ⟨c, hc, d, hd, -, e1⟩ := h
      obtain ⟨c', hc', d', hd', -, e2⟩ := h'
      exact (rowPos_inj ((mem_stride hb hz).mp he).1 hc hx ((mem_stride hb hz).mp he').1 hc' hx (e1.symm.trans e2)).1
    · obtain ⟨c, hc, d, hd, rfl, -⟩ := h
      rcases hr with h | ⟨j, h⟩ <;> cases h
  · obtain ⟨hx, hz⟩ := thread_dec ht
    obtain ⟨hx', hz'⟩ := thread_dec ht'
    obtain ⟨e, he, c, hc, d, hd, -, e1⟩ := h
    obtain ⟨e', he', c', hc', d', hd', -, e2⟩ := h'
    obtain ⟨h1, h2⟩ := (mem_stride hb hz).mp he
    obtain ⟨h1', h2'⟩ := (mem_stride hb' hz').mp he'
    obtain ⟨rfl, -, -, hxx⟩ := rowPos_inj h1 hc hx h1' hc' hx' (e1.symm.trans e2)
    obtain ⟨rfl, hzz⟩ := handles_inj hz hz' h2 h2'
    exact ⟨rfl, thread_inj hxx hzz⟩
  · obtain ⟨e, he, c, hc, d, hd, rfl, -⟩ := h
    rcases hr with h | ⟨j, h⟩ <;> cases h
  · obtain ⟨b, hb, z, hz, hh⟩ := handles_exists (B := Z) hG hZ e
    have htl : z * D.Q + q < D.Q * Z := by
      rw [Nat.mul_comm D.Q]
      exact enc_lt hz hq
    rw [h1 b hb (z * D.Q + q) htl .v _ ⟨e, (mem_stride hb (by rw [div_enc hq]; exact hz)).mpr ⟨he, by rw [div_enc hq]; exact hh⟩,
      c, hc, d, hd, rfl, by rw [mod_enc hq]⟩]
    rfl
  · refine h2 .v i fun b hb t ht ⟨e, he, c, hc, d, hd, _, e1⟩ => ?_
    obtain ⟨hx, hz⟩ := thread_dec ht
    have := rowPos_lt ((mem_stride hb hz).mp he).1 hc hd hx
    omega
  · exact h2 .u i fun b hb t ht ⟨e, he, c, hc, d, hd, e0, e1⟩ => by cases e0

/-- `InterpTranspose` and `DerivTranspose`. -/
theorem matT_runs (hG : 0 < G) (hZ : 0 < Z) (hP : 0 < D.P) (ht : D.qc * D.Q * D.P ≤ m.len (.table 0))
    (hu : D.qc * D.nc * D.ne * D.Q ≤ m.len .u) (hv : D.nc * D.ne * D.P ≤ m.len .v) :
    Runs G (D.P * Z) (launch (matTKernel D.nc D.qc D.P D.Q D.ne D.P Z G) m) fun s =>
      (∀ e < D.ne, ∀ c < D.nc, ∀ n < D.P,
        s .v (colPos D e c n) = m.val .v (colPos D e c n) + colRes D m.val (colPos D e c n)) ∧
      (∀ i, D.nc * D.ne * D.P ≤ i → s .v i = m.val .v i) ∧ s .u = m.val .u := by
  have hB : 0 < D.P * Z := Nat.mul_pos hP hZ
  refine runs_pieces hB (fun b t a i => ∃ e ∈ strideList D.ne (Z * G) D.ne (b * Z + t / D.P),
      ∃ c < D.nc, a = .v ∧ i = colPos D e c (t % D.P))
    roUT (setV (fun s i => s .v i + colRes D s i)) (fun b hb t ht' => ?_) (fun b hb t ht b' hb' t' ht' a i h h' => ?_)
    (fun b hb t ht a i h hr => ?_) fun s h1 h2 => ⟨fun e he c hc q hq => ?_, fun i hi => ?_, funext fun i => ?_⟩
  · obtain ⟨hx, hz⟩ := thread_dec ht'
    refine piece_forIn (l := strideList D.ne (Z * G) D.ne (b * Z + t / D.P))
      (o := fun e a i => ∃ c < D.nc, a = .v ∧ i = colPos D e c (t % D.P))
      (nodup_strideList (Nat.mul_pos hZ hG) _ _)
      (fun e he => (contractT_piece ((mem_stride hb hz).mp he).1 hx ht hu hv fun c hc => ⟨e, he, c, hc, rfl, rfl⟩).1)
      (fun e he s => (contractT_piece (own := fun _ _ => True) ((mem_stride hb hz).mp he).1 hx ht hu hv
        fun c hc => trivial).2 s)
      (fun e he e' he' a i h h' => ?_) (fun e he a i h hr => ?_) (fun e he s s' h a i ho => ?_)
    · obtain ⟨c, hc, -, e1⟩ := h
      obtain ⟨c', hc', -, e2⟩ := h'
      exact (colPos_inj ((mem_stride hb hz).mp he).1 hx ((mem_stride hb hz).mp he').1 hx (e1.symm.trans e2)).1
    · obtain ⟨c, hc, rfl, -⟩ := h
      rcases hr with h | ⟨j, h⟩ <;> cases h
    · obtain ⟨c, hc, rfl, rfl⟩ := ho
      unfold setV
      rw [if_pos rfl, if_pos rfl]
      show s .v _ + _ = s' .v _ + _
      rw [h _ _ (.inl ⟨c, hc, rfl, rfl⟩), colRes_loc (fun a i hr => h a i (.inr hr))]
  · obtain ⟨hx, hz⟩ := thread_dec ht
    obtain ⟨hx', hz'⟩ := thread_dec ht'
    obtain ⟨e, he, c, hc, -, e1⟩ := h
    obtain ⟨e', he', c', hc', -, e2⟩ := h'
    obtain ⟨h1, h2⟩ := (mem_stride hb hz).mp he
    obtain ⟨h1', h2'⟩ := (mem_stride hb' hz').mp he'
    obtain ⟨rfl, -, hxx⟩ := colPos_inj h1 hx h1' hx' (e1.symm.trans e2)
    obtain ⟨rfl, hzz⟩ := handles_inj hz hz' h2 h2'
    exact ⟨rfl, thread_inj hxx hzz⟩
  · obtain ⟨e, he, c, hc, rfl, -⟩ := h
    rcases hr with h | ⟨j, h⟩ <;> cases h
  · obtain ⟨b, hb, z, hz, hh⟩ := handles_exists (B := Z) hG hZ e
    have htl : z * D.P + q < D.P * Z := by
      rw [Nat.mul_comm D.P]
      exact enc_lt hz hq
    rw [h1 b hb (z * D.P + q) htl .v _ ⟨e, (mem_stride hb (by rw [div_enc hq]; exact hz)).mpr ⟨he, by rw [div_enc hq]; exact hh⟩,
      c, hc, rfl, by rw [mod_enc hq]⟩]
    rfl
  · refine h2 .v i fun b hb t ht ⟨e, he, c, hc, _, e1⟩ => ?_
    obtain ⟨hx, hz⟩ := thread_dec ht
    have := colPos_lt ((mem_stride hb hz).mp he).1 hc hx
    omega
  · exact h2 .u i fun b hb t ht ⟨e, he, c, hc, e0, e1⟩ => by cases e0

/-- `Weight` of the non-tensor source. -/
theorem weights_runs {Q ne : Nat} (hG : 0 < G) (hZ : 0 < Z) (hQ : 0 < Q) (ht : Q ≤ m.len (.table 0))
    (hv : ne * Q ≤ m.len .v) :
    Runs G (Q * Z) (launch (weightsKernel Q ne Q Z G) m) fun s =>
      (∀ e < ne, ∀ q < Q, s .v (e * Q + q) = m.val (.table 0) q) ∧
      (∀ i, ne * Q ≤ i → s .v i = m.val .v i) ∧ s .u = m.val .u := by
  have hB : 0 < Q * Z := Nat.mul_pos hQ hZ
  have hinj : ∀ {e x e' x' : Nat}, x < Q → x' < Q → e * Q + x = e' * Q + x' → e = e' ∧ x = x' := by
    intro e x e' x' hx hx' h
    have h1 := congrArg (· / Q) h
    have h2 := congrArg (· % Q) h
    simp only [div_enc hx, div_enc hx', mod_enc hx, mod_enc hx'] at h1 h2
    exact ⟨h1, h2⟩
  refine runs_pieces hB (fun b t a i => ∃ e ∈ strideList ne (Z * G) ne (b * Z + t / Q), a = .v ∧ i = e * Q + t % Q)
    roUT (setV (fun s i => s (.table 0) (i % Q))) (fun b hb t ht' => ?_) (fun b hb t ht b' hb' t' ht' a i h h' => ?_)
    (fun b hb t ht a i h hr => ?_) fun s h1 h2 => ⟨fun e he q hq => ?_, fun i hi => ?_, funext fun i => ?_⟩
  · obtain ⟨hx, hz⟩ := thread_dec ht'
    refine piece_forIn (l := strideList ne (Z * G) ne (b * Z + t / Q))
      (o := fun e a i => a = .v ∧ i = e * Q + t % Q)
      (nodup_strideList (Nat.mul_pos hZ hG) _ _)
      (fun e he => safeP_bind (safeP_rd ⟨by omega, by omega⟩ (.inr (.inr ⟨0, rfl⟩))) fun x => safeP_wr ?_ ⟨e, he, rfl, rfl⟩)
      (fun e he s => ⟨_, big_bind (big_rd _ _ _) (big_wr _ _ _ _), ?_, fun a i h => upd_other _ _ h⟩)
      (fun e he e' he' a i h h' => (hinj hx hx (h.2.symm.trans h'.2)).1) (fun e he a i h hr => ?_)
      (fun e he s s' h => setV_loc (f := fun (s : Vals α) i => s (.table 0) (i % Q))
        (fun s s' h i => h _ _ (.inr ⟨0, rfl⟩)) h)
    · have := enc_lt ((mem_stride hb hz).mp he).1 hx
      exact ⟨by omega, by omega⟩
    · rintro a i ⟨rfl, rfl⟩
      show upd s .v (e * Q + t % Q) (s (.table 0) (t % Q)) .v (e * Q + t % Q) = s (.table 0) ((e * Q + t % Q) % Q)
      rw [upd_same, mod_enc hx]
    · obtain ⟨rfl, -⟩ := h
      rcases hr with h | ⟨j, h⟩ <;> cases h
  · obtain ⟨hx, hz⟩ := thread_dec ht
    obtain ⟨hx', hz'⟩ := thread_dec ht'
    obtain ⟨e, he, -, e1⟩ := h
    obtain ⟨e', he', -, e2⟩ := h'
    obtain ⟨h1, h2⟩ := (mem_stride hb hz).mp he
    obtain ⟨h1', h2'⟩ := (mem_stride hb' hz').mp he'
    obtain ⟨rfl, hxx⟩ := hinj hx hx' (e1.symm.trans e2)
    obtain ⟨rfl, hzz⟩ := handles_inj hz hz' h2 h2'
    exact ⟨rfl, thread_inj hxx hzz⟩
  · obtain ⟨e, he, rfl, -⟩ := h
    rcases hr with h | ⟨j, h⟩ <;> cases h
  · obtain ⟨b, hb, z, hz, hh⟩ := handles_exists (B := Z) hG hZ e
    have htl : z * Q + q < Q * Z := by
      rw [Nat.mul_comm Q]
      exact enc_lt hz hq
    rw [h1 b hb (z * Q + q) htl .v _ ⟨e, (mem_stride hb (by rw [div_enc hq]; exact hz)).mpr ⟨he, by rw [div_enc hq]; exact hh⟩,
      rfl, by rw [mod_enc hq]⟩]
    unfold setV
    rw [if_pos rfl]
    show m.val (.table 0) ((e * Q + q) % Q) = _
    rw [mod_enc hq]
  · refine h2 .v i fun b hb t ht ⟨e, he, _, e1⟩ => ?_
    obtain ⟨hx, hz⟩ := thread_dec ht
    have := enc_lt ((mem_stride hb hz).mp he).1 hx
    omega
  · exact h2 .u i fun b hb t ht ⟨e, he, e0, e1⟩ => by cases e0

end

end Verif.Gpu
