import Verif.Gpu.Kernels

/-!
# Kernels that add without atomics: strided and deterministic transposes
-/

namespace Verif.Gpu
open Finset Verif.Restriction

variable {α : Type} [CommRing α]

/-- `v[pos c] += val c` for `c < nc`. -/
def incs (nc : Nat) (pos : Nat → Nat) (val : Nat → α) (s : Vals α) : Vals α :=
  (List.range nc).foldl (fun s c => upd s .v (pos c) (s .v (pos c) + val c)) s

theorem incs_at (nc : Nat) (pos : Nat → Nat) (val : Nat → α) (s : Vals α) (i : Nat) :
    incs nc pos val s .v i = s .v i + ∑ c ∈ range nc, if pos c = i then val c else 0 := by
  unfold incs
  induction nc with
  | zero => simp
  | succ n ih =>
    rw [List.range_succ, List.foldl_append, Finset.sum_range_succ, ← add_assoc, ← ih]
    simp only [List.foldl_cons, List.foldl_nil]
    by_cases h : pos n = i
    · subst h
      rw [upd_same, if_pos rfl]
    · rw [upd_other _ _ (fun hc => h hc.2.symm), if_neg h, add_zero]

theorem foldl_incs_at {l : List Nat} {nc : Nat} (pos : Nat → Nat → Nat) (val : Nat → Nat → α) (s : Vals α) (i : Nat) :
    (l.foldl (fun s x => incs nc (pos x) (val x) s) s) .v i =
      s .v i + (l.map fun x => ∑ c ∈ range nc, if pos x c = i then val x c else 0).sum := by
  induction l generalizing s with
  | nil => simp
  | cons x l ih => rw [List.foldl_cons, ih, incs_at, List.map_cons, List.sum_cons, add_assoc]

theorem inc_runs {n nc : Nat} {body : Nat → K α Unit} {pos : Nat → Nat → Nat} {val : Nat → Nat → α} {G B : Nat}
    {u v : Buf α} (hG : 0 < G) (hB : 0 < B)
    (hdoes : ∀ x < n, Does u.val (body x) () (incs nc (pos x) (val x)) (fun _ _ => 0))
    (hsafe : ∀ x < n, ∀ (F : Foot) (b t : Nat), (∀ i, F.ro .u i) → (∀ c < nc, F.own b t .v (pos x c)) →
      Safe F (memOf u v).len b t (body x) (fun _ => True))
    (hinj : ∀ x < n, ∀ x' < n, ∀ c < nc, ∀ c' < nc, pos x c = pos x' c' → x = x') :
    Runs G B (launch (fun b t => strideFor n (b * B + t) (B * G) body) (memOf u v)) (fun s =>
      (∀ i, s .v i = v.val i + ∑ x ∈ range n, ∑ c ∈ range nc, if pos x c = i then val x c else 0) ∧
        s .u = u.val) := by
  classical
  let F : Foot := ⟨fun b t a i => a = .v ∧ ∃ x < n, Handles G B b t x ∧ ∃ c < nc, pos x c = i, fun a _ => a = .u,
    fun _ _ => False⟩
  have hF : F.Apart G B := by
    refine ⟨fun _ ht _ ht' h h' => ?_, fun _ _ h hr => ?_, fun _ _ _ h => h, fun _ h => h⟩
    · obtain ⟨-, x, hx, hh, c, hc, rfl⟩ := h
      obtain ⟨-, x', hx', hh', c', hc', he⟩ := h'
      have := hinj x' hx' x hx c' hc' c hc he
      subst this
      exact handles_inj ht ht' hh hh'
    · have h1 := h.1
      rw [show _ = Arr.u from hr] at h1
      cases h1
  have hd : ∀ b t, b < G → t < B → Does u.val (strideFor n (b * B + t) (B * G) body) () _ _ := fun b t hb ht =>
    does_forIn (l := strideList n (B * G) n (b * B + t)) fun x hx => hdoes x ((mem_stride hb ht).mp hx).1
  refine runs_apart hF (fun b hb t ht => ?_) fun s hown _ hother => ⟨fun i => ?_, ?_⟩
  · refine safe_forIn (σ := Unit) (I := fun _ => True) (fun x hx _ _ => ?_) trivial _
      fun _ _ => (trivial : F.Fits _ b t Prog.done)
    obtain ⟨hn, hh⟩ := (mem_stride hb ht).mp hx
    exact hsafe x hn F b t (fun _ => rfl) fun c hc => ⟨rfl, x, hn, hh, c, hc, rfl⟩
  · by_cases hex : ∃ x < n, ∃ c < nc, pos x c = i
    · obtain ⟨x, hx, c, hc, hp⟩ := hex
      obtain ⟨b, hb, t, ht, hh⟩ := handles_exists (B := B) hG hB x
      rw [hown b hb t ht .v i ⟨rfl, x, hx, hh, c, hc, hp⟩]
      show exec (strideFor n (b * B + t) (B * G) body fun _ => .done) (memOf u v).val .v i = _
      rw [exec_does (hd b t hb ht) rfl, foldl_incs_at]
      refine congrArg (v.val i + ·) ?_
      rw [← List.sum_toFinset _ (nodup_strideList (Nat.mul_pos hB hG) _ _)]
      refine Finset.sum_subset (fun y hy => ?_) fun y hy hny => ?_
      · rw [List.mem_toFinset, mem_stride hb ht] at hy
        exact Finset.mem_range.mpr hy.1
      · rw [Finset.mem_range] at hy
        refine Finset.sum_eq_zero fun c' hc' => if_neg fun he => hny ?_
        have := hinj y hy x hx c' (Finset.mem_range.mp hc') c hc (he.trans hp.symm)
        subst this
        rw [List.mem_toFinset, mem_stride hb ht]
        exact ⟨hy, hh⟩
    · rw [hother .v i (fun h => h) fun b _ t _ ho => ?_, Finset.sum_eq_zero, add_zero]
      · rfl
      · intro x hx
        refine Finset.sum_eq_zero fun c hc => if_neg fun he => hex ?_
        exact ⟨x, Finset.mem_range.mp hx, c, Finset.mem_range.mp hc, he⟩
      · obtain ⟨-, x, hx, -, c, hc, he⟩ := ho
        exact hex ⟨x, hx, c, hc, he⟩
  · funext i
    exact hother .u i (fun h => h) fun b _ t _ ho => absurd ho.1 (by simp)

theorem safe_incv {F : Foot} {len : Arr → Nat} {b t : Nat} {i : Int} {x : α} (hi : InB len .v i)
    (ho : F.own b t .v i.toNat) : Safe F len b t (do let y ← rd .v i; wr .v i (y + x)) (fun _ => True) :=
  safe_bind (safe_rd hi (.inl ho)) fun _ _ => safe_wr hi ho

/-- Strided transpose, when no two entries of the E-vector share an entry of the L-vector across nodes. -/
theorem strided_runs {ne es nc : Nat} {s : Int × Int × Int} {G B : Nat} {u v : Buf α} (hG : 0 < G) (hB : 0 < B)
    (hu : ne * es * nc ≤ u.len)
    (hin : ∀ node < ne * es, ∀ comp < nc, InB (memOf u v).len .v
      (((node % es : Nat) : Int) * s.1 + (comp : Nat) * s.2.1 + ((node / es : Nat) : Int) * s.2.2))
    (hinj : ∀ x < ne * es, ∀ x' < ne * es, ∀ c < nc, ∀ c' < nc,
      (((x % es : Nat) : Int) * s.1 + (c : Nat) * s.2.1 + ((x / es : Nat) : Int) * s.2.2) =
        (((x' % es : Nat) : Int) * s.1 + (c' : Nat) * s.2.1 + ((x' / es : Nat) : Int) * s.2.2) → x = x') :
    Runs G B (launch (stridedTransposeKernel ne es nc s G B) (memOf u v)) (fun m =>
      (∀ i, m .v i = v.val i + ∑ x ∈ range (ne * es), ∑ c ∈ range nc,
        if (((x % es : Nat) : Int) * s.1 + (c : Nat) * s.2.1 + ((x / es : Nat) : Int) * s.2.2).toNat = i
          then u.val (x + c * (ne * es)) else 0) ∧ m .u = u.val) := by
  have hpos : ∀ {node comp : Nat}, node < ne * es → comp < nc → node + comp * (ne * es) < ne * es * nc := by
    intro node comp hn hc
    have : (comp + 1) * (ne * es) ≤ nc * (ne * es) := Nat.mul_le_mul_right _ hc
    rw [Nat.add_mul, Nat.one_mul, Nat.mul_comm nc] at this
    omega
  refine inc_runs (n := ne * es) (nc := nc)
    (pos := fun x c => (((x % es : Nat) : Int) * s.1 + (c : Nat) * s.2.1 + ((x / es : Nat) : Int) * s.2.2).toNat)
    (val := fun x c => u.val (x + c * (ne * es))) hG hB (fun x hx => ?_) (fun x hx F b t hro hown => ?_)
    (fun x hx x' hx' c hc c' hc' he => ?_)
  · have hc : ∀ comp : Nat, Does u.val (do
        let y ← rd .u (((x + comp * (ne * es) : Nat)) : Int)
        let z ← rd .v (((x % es : Nat) : Int) * s.1 + (comp : Nat) * s.2.1 + ((x / es : Nat) : Int) * s.2.2)
        wr .v (((x % es : Nat) : Int) * s.1 + (comp : Nat) * s.2.1 + ((x / es : Nat) : Int) * s.2.2) (z + y)) ()
        (fun m => upd m .v (((x % es : Nat) : Int) * s.1 + (comp : Nat) * s.2.1 + ((x / es : Nat) : Int) * s.2.2).toNat
          (m .v (((x % es : Nat) : Int) * s.1 + (comp : Nat) * s.2.1 + ((x / es : Nat) : Int) * s.2.2).toNat +
            u.val (x + comp * (ne * es)))) (fun _ _ => 0) := fun comp => gives_does gives_rdu does_incv
    have h := does_forN (u₀ := u.val) (n := nc) (body := fun comp _ => do
        let y ← rd .u (((x + comp * (ne * es) : Nat)) : Int)
        let z ← rd .v (((x % es : Nat) : Int) * s.1 + (comp : Nat) * s.2.1 + ((x / es : Nat) : Int) * s.2.2)
        wr .v (((x % es : Nat) : Int) * s.1 + (comp : Nat) * s.2.1 + ((x / es : Nat) : Int) * s.2.2) (z + y))
      fun comp _ => hc comp
    have hz : (fun (_ : Arr) (_ : Nat) => ((List.range nc).map fun _ => (0 : α)).sum) = fun _ _ => 0 := by
      funext a i; simp
    rw [hz] at h
    simp only [ePosC_node]
    exact h
  · refine safe_forN (fun comp hcomp _ _ => ?_) trivial
    refine safe_bind (safe_rd ?_ (.inr (hro _))) fun y _ => safe_incv (hin x hx comp hcomp) (hown comp hcomp)
    rw [ePosC_node]
    refine ⟨Int.natCast_nonneg _, ?_⟩
    show ((_ : Nat) : Int) < ((u.len : Nat) : Int)
    exact_mod_cast lt_of_lt_of_le (hpos hx hcomp) hu
  · have h1 := (hin x hx c hc).1
    have h2 := (hin x' hx' c' hc').1
    exact hinj x hx x' hx' c hc c' hc' (by omega)

/-! ## Deterministic kernels -/

theorem foldl_setAt (nc : Nat) (f : Nat → α) (value : Nat → α) (comp : Nat) :
    (List.range nc).foldl (fun value c => setAt value c (value c + f c)) value comp =
      if comp < nc then value comp + f comp else value comp := by
  induction nc with
  | zero => simp
  | succ n ih =>
    rw [List.range_succ, List.foldl_append]
    simp only [List.foldl_cons, List.foldl_nil, setAt]
    have hn : (List.range n).foldl (fun value c => setAt value c (value c + f c)) value n = value n := by
      have : ∀ (l : List Nat) (value : Nat → α), n ∉ l →
          l.foldl (fun value c => setAt value c (value c + f c)) value n = value n := by
        intro l
        induction l with
        | nil => exact fun _ _ => rfl
        | cons c l ih' =>
          intro value hnl
          rw [List.foldl_cons, ih' _ (fun h => hnl (List.mem_cons_of_mem _ h))]
          show (if n = c then _ else value n) = _
          exact if_neg fun (h : n = c) => hnl (h ▸ List.mem_cons_self ..)
      exact this _ _ (by simp)
    by_cases h : comp = n
    · subst h
      rw [if_pos rfl, if_pos (by omega), hn]
    · rw [if_neg h, ih]
      by_cases h2 : comp < n
      · rw [if_pos h2, if_pos (by omega)]
      · rw [if_neg h2, if_neg (by omega)]

theorem foldl_values {l : List Int} (nc : Nat) (f : Int → Nat → α) (value : Nat → α) {comp : Nat} (hc : comp < nc) :
    (l.foldl (fun value j => (List.range nc).foldl (fun value c => setAt value c (value c + f j c)) value) value)
      comp = value comp + (l.map fun j => f j comp).sum := by
  induction l generalizing value with
  | nil => simp
  | cons j l ih => rw [List.foldl_cons, ih, foldl_setAt, if_pos hc, List.map_cons, List.sum_cons, add_assoc]

/-- What the deterministic kernels need of the transposed offsets: they list, for each of the `nn` nodes, the
E-vector positions that belong to it. -/
structure Transposed (nn size : Nat) (lVec tInd tOff : Buf Int) : Prop where
  lVec_len : nn ≤ lVec.len
  tOff_len : nn + 1 ≤ tOff.len
  lo : ∀ i ≤ nn, 0 ≤ tOff.val i
  hi : ∀ i ≤ nn, tOff.val i ≤ tInd.len
  mem : ∀ i < nn, ∀ j, tOff.val i ≤ j → j < tOff.val (i + 1) → 0 ≤ tInd.val j.toNat ∧ tInd.val j.toNat < size

/-- The sum a node receives: positions `j` of the list between its two offsets. -/
def detVal (tInd tOff : Buf Int) (val : Nat → Nat → α) (x c : Nat) : α :=
  ((intRange (tOff.val x) (tOff.val (x + 1))).map fun j => val (tInd.val j.toNat).toNat c).sum

/-- The loop of `detKernel` that adds up. -/
def detSum (nc : Nat) (tInd : Buf Int) (term : Int → Nat → K α α) (lo hi : Int) : K α (Nat → α) :=
  forIn' (intRange lo hi) (fun j value => do
      let tInd ← ird tInd j
      forN nc (fun comp value => do
        let x ← term tInd comp
        pure (setAt value comp (value comp + x))) value) (fun _ => 0)

/-- The loop of `detKernel` that adds the sums to the L-vector. -/
def detAdd (nc : Nat) (cs : Int) (ind : Int) (value : Nat → α) : K α Unit :=
  forN nc (fun comp _ => do
      let y ← rd .v (ind + comp * cs)
      wr .v (ind + comp * cs) (y + value comp)) ()

theorem detKernel_eq (nn nc : Nat) (cs : Int) (lVec tIndices tOffsets : Buf Int) (term : Int → Nat → K α α)
    (G B b t : Nat) : detKernel nn nc cs lVec tIndices tOffsets term G B b t =
      strideFor nn (b * B + t) (B * G) (fun i => (do
        let ind ← ird lVec i
        let lo ← ird tOffsets i
        let hi ← ird tOffsets (i + 1)
        let value ← detSum nc tIndices term lo hi
        detAdd nc cs ind value)) := rfl

theorem forN_congr {n : Nat} {f g : Nat → Unit → K α Unit} (h : ∀ c < n, f c = g c) : forN n f () = forN n g () := by
  have hcongr : ∀ (l : List Nat), (∀ c ∈ l, f c = g c) → forIn' l f () = forIn' l g () := by
    intro l
    induction l with
    | nil => exact fun _ => rfl
    | cons c l ih =>
      intro hh
      unfold forIn'
      rw [hh c (List.mem_cons_self ..)]
      exact congrArg _ (funext fun _ => ih fun d hd => hh d (List.mem_cons_of_mem _ hd))
  exact hcongr _ fun c hc => h c (List.mem_range.mp hc)

theorem detAdd_congr {nc : Nat} {cs ind : Int} {f g : Nat → α} (h : ∀ c < nc, f c = g c) :
    detAdd nc cs ind f = detAdd nc cs ind g :=
  forN_congr fun c hc => by rw [h c hc]

theorem does_detAdd {u₀ : Nat → α} (nc : Nat) (cs ind : Int) (value : Nat → α) :
    Does u₀ (detAdd nc cs ind value) () (incs nc (fun c => (ind + (c : Nat) * cs).toNat) value) (fun _ _ => 0) := by
  have h := does_forN (u₀ := u₀) (n := nc) (body := fun comp _ => do
      let y ← rd .v (ind + (comp : Nat) * cs)
      wr .v (ind + (comp : Nat) * cs) (y + value comp)) fun comp (_ : comp < nc) => does_incv
  have hz : (fun (_ : Arr) (_ : Nat) => ((List.range nc).map fun _ => (0 : α)).sum) = fun _ _ => 0 := by
    funext a i; simp
  rw [hz] at h
  exact h

section Det
variable {nn nc size : Nat} {cs : Int} {lVec tInd tOff : Buf Int} {term : Int → Nat → K α α}
  {val : Nat → Nat → α} {len : Arr → Nat} {u₀ : Nat → α}

theorem det_mem (ht : Transposed nn size lVec tInd tOff) {x : Nat} (hx : x < nn) {j : Int}
    (hj : j ∈ intRange (tOff.val x) (tOff.val (x + 1))) :
    0 ≤ j ∧ j < tInd.len ∧ ((tInd.val j.toNat).toNat : Int) = tInd.val j.toNat ∧ (tInd.val j.toNat).toNat < size := by
  unfold intRange at hj
  obtain ⟨j', hj', rfl⟩ := List.mem_map.mp hj
  rw [List.mem_range] at hj'
  have h0 := ht.lo x (by omega)
  have h1 := ht.hi (x + 1) (by omega)
  have h2 := ht.mem x hx (tOff.val x + (j' : Int)) (by omega) (by omega)
  exact ⟨by omega, by omega, by omega, by omega⟩

theorem gives_detSum (ht : Transposed nn size lVec tInd tOff)
    (h : ∀ node < size, ∀ comp < nc, Gives u₀ (term (node : Int) comp) (val node comp)) {x : Nat} (hx : x < nn) :
    Gives u₀ (detSum nc tInd term (tOff.val x) (tOff.val (x + 1)))
      ((intRange (tOff.val x) (tOff.val (x + 1))).foldl (fun value j => (List.range nc).foldl
        (fun value c => setAt value c (value c + val (tInd.val j.toNat).toNat c)) value) (fun _ => 0)) := by
  refine gives_forIn (fun j hj value => ?_) _
  obtain ⟨h0, h1, h2, h3⟩ := det_mem ht hx hj
  refine gives_bind (gives_ird h0 h1) ?_
  refine gives_forN (fun comp hcomp value => ?_) value
  have := h _ h3 comp hcomp
  rw [h2] at this
  exact gives_bind this (gives_pure _)

theorem safe_detSum {F : Foot} {b t : Nat} (ht : Transposed nn size lVec tInd tOff)
    (h : ∀ node < size, ∀ comp < nc, Safe F len b t (term (node : Int) comp) (fun _ => True)) {x : Nat} (hx : x < nn) :
    Safe F len b t (detSum nc tInd term (tOff.val x) (tOff.val (x + 1))) (fun _ => True) := by
  refine safe_forIn (fun j hj value _ => ?_) trivial
  obtain ⟨h0, h1, h2, h3⟩ := det_mem ht hx hj
  refine safe_bind (safe_ird h0 h1) fun ti hti => ?_
  subst hti
  refine safe_forN (fun comp hcomp value _ => ?_) trivial
  have := h _ h3 comp hcomp
  rw [h2] at this
  exact safe_bind this fun _ _ => safe_pure trivial

theorem det_idx (ht : Transposed nn size lVec tInd tOff) {x : Nat} (hx : x < nn) :
    (0 : Int) ≤ (x : Int) ∧ (x : Int) < lVec.len ∧ (x : Int) < tOff.len ∧
      (0 : Int) ≤ (x : Int) + 1 ∧ (x : Int) + 1 < tOff.len := by
  have h1 := ht.lVec_len
  have h2 := ht.tOff_len
  omega

theorem det_runs {G B : Nat} {u v : Buf α} (hG : 0 < G) (hB : 0 < B)
    (ht : Transposed nn size lVec tInd tOff)
    (hin : ∀ i < nn, ∀ comp < nc, InB (memOf u v).len .v (lVec.val i + (comp : Nat) * cs))
    (hinj : ∀ x < nn, ∀ x' < nn, ∀ c < nc, ∀ c' < nc,
      lVec.val x + (c : Nat) * cs = lVec.val x' + (c' : Nat) * cs → x = x')
    (h : ∀ node < size, ∀ comp < nc, Computes (memOf u v).len u.val (term (node : Int) comp) (val node comp)) :
    Runs G B (launch (detKernel nn nc cs lVec tInd tOff term G B) (memOf u v)) (fun s =>
      (∀ i, s .v i = v.val i + ∑ x ∈ range nn, ∑ c ∈ range nc,
        if (lVec.val x + (c : Nat) * cs).toNat = i then detVal tInd tOff val x c else 0) ∧ s .u = u.val) := by
  have hlo : ∀ x : Nat, ((x : Int) + 1).toNat = x + 1 := fun x => by omega
  have heq : detKernel nn nc cs lVec tInd tOff term G B = fun b t => _ :=
    funext fun b => funext fun t => detKernel_eq nn nc cs lVec tInd tOff term G B b t
  rw [heq]
  refine inc_runs (n := nn) (nc := nc) (pos := fun x c => (lVec.val x + (c : Nat) * cs).toNat)
    (val := fun x c => detVal tInd tOff val x c)
    hG hB (fun x hx => ?_) (fun x hx F b t hro hown => ?_) (fun x hx x' hx' c hc c' hc' he => ?_)
  · have hl := det_idx ht hx
    have e1 := gives_ird (α := α) (u₀ := u.val) hl.1 hl.2.1
    have e2 := gives_ird (α := α) (u₀ := u.val) hl.1 hl.2.2.1
    have e3 := gives_ird (α := α) (u₀ := u.val) hl.2.2.2.1 hl.2.2.2.2
    rw [hlo] at e3
    rw [Int.toNat_natCast] at e1 e2
    refine gives_does e1 (gives_does e2 (gives_does e3 (gives_does
      (gives_detSum ht (fun node hn comp hc => (h node hn comp hc).1) hx) ?_)))
    rw [detAdd_congr (g := detVal tInd tOff val x) fun c hc => ?_]
    · exact does_detAdd nc cs _ _
    · rw [foldl_values nc (fun j c => val (tInd.val j.toNat).toNat c) _ hc, zero_add]
      rfl
  · have hl := det_idx ht hx
    refine safe_bind (safe_ird hl.1 hl.2.1) fun ind hind => ?_
    refine safe_bind (safe_ird hl.1 hl.2.2.1) fun lo hlo' => ?_
    refine safe_bind (safe_ird hl.2.2.2.1 hl.2.2.2.2) fun hi hhi => ?_
    rw [hlo] at hhi
    rw [Int.toNat_natCast] at hind hlo'
    subst hind hlo' hhi
    refine safe_bind (safe_detSum ht (fun node hn comp hc => (h node hn comp hc).2 F b t hro) hx) fun value _ => ?_
    exact safe_forN (fun comp hcomp _ _ => safe_incv (hin x hx comp hcomp) (hown comp hcomp)) trivial
  · have h1 := (hin x hx c hc).1
    have h2 := (hin x' hx' c' hc').1
    exact hinj x hx x' hx' c hc c' hc' (by omega)

end Det

end Verif.Gpu
