import Verif.Gpu.AsmDiag
import Verif.Gpu.AsmKernel
import Verif.Restriction.Apply

/-!
# The kernel of diagonals on every schedule (helper lemmas)
-/

namespace Verif.Gpu
open Finset (range)
open Verif.Basis (EMode)

variable {α : Type} [CommRing α]

/-! ## Pieces that add to the result -/

/-- Run alone, the piece adds `g` to the result, which depends only on the inputs and tables. -/
structure AddsV (g : Vals α → Nat → α) (m : K α Unit) : Prop where
  big : ∀ s, Big m s () (fun a i => if a = .v then s .v i + g s i else s a i)
  loc : ∀ s s' : Vals α, (∀ a i, roUT a i → s a i = s' a i) → g s = g s'

theorem addsV_pure : AddsV (fun _ _ => 0) (pure () : K α Unit) := by
  refine ⟨fun s => ?_, fun _ _ _ => rfl⟩
  have : (fun a i => if a = Arr.v then s .v i + 0 else s a i) = s := by
    funext a i
    split
    · next h => rw [h, add_zero]
    · rfl
  rw [this]
  exact big_pure () s

theorem AddsV.bind {g g' : Vals α → Nat → α} {m m' : K α Unit} (h : AddsV g m) (h' : AddsV g' m') :
    AddsV (fun s j => g s j + g' s j) (m >>= fun _ => m') := by
  refine ⟨fun s => ?_, fun s s' hs => by rw [h.loc s s' hs, h'.loc s s' hs]⟩
  have b := big_bind (f := fun _ => m') (h.big s) (h'.big _)
  have e : g' (fun a i => if a = Arr.v then s .v i + g s i else s a i) = g' s := by
    refine h'.loc _ _ fun a i hr => if_neg ?_
    rintro rfl
    rcases hr with hr | ⟨j, hr⟩ <;> cases hr
  rw [e] at b
  convert b using 1
  funext a i
  by_cases ha : a = .v
  · simp only [if_pos ha, if_true, add_assoc]
  · simp only [if_neg ha]

theorem addsV_forIn {β : Type} {l : List β} {g : β → Vals α → Nat → α} {body : β → K α Unit}
    (h : ∀ x ∈ l, AddsV (g x) (body x)) :
    AddsV (fun s j => (l.map fun x => g x s j).sum) (forIn' l (fun x _ => body x) ()) := by
  induction l with
  | nil => exact addsV_pure
  | cons x l ih =>
    have := (h x (List.mem_cons_self ..)).bind (ih fun y hy => h y (List.mem_cons_of_mem _ hy))
    simp only [List.map_cons, List.sum_cons]
    exact this

theorem addsV_forN {n : Nat} {g : Nat → Vals α → Nat → α} {body : Nat → K α Unit} (h : ∀ x < n, AddsV (g x) (body x)) :
    AddsV (fun s j => ∑ x ∈ range n, g x s j) (forN n (fun x _ => body x) ()) := by
  have := addsV_forIn (l := List.range n) (g := g) (body := body) fun x hx => h x (List.mem_range.mp hx)
  have e : (fun (s : Vals α) j => ((List.range n).map fun x => g x s j).sum) = fun s j => ∑ x ∈ range n, g x s j := by
    funext s j
    have := foldl_sum n (fun x => g x s j) 0
    rw [zero_add] at this
    rw [← this, List.sum_eq_foldl, List.foldl_map]
  rw [e] at this
  exact this

/-! ## One pair -/

/-- The value of `e_value`. -/
def diagTerm (k : DiagK) (mi mo : List EMode) (s : Vals α) (x ci y co e tid : Nat) : α :=
  ∑ q ∈ range k.Q, s (.table (diagTab true (dirAt mo y).1)) ((dirAt mo y).2 * k.Q * k.P + (q * k.P + tid)) *
    s .u (((((x * k.nc + ci) * k.eO + y) * k.nc + co) * k.ne + e) * k.Q + q) *
    s (.table (diagTab false (dirAt mi x).1)) ((dirAt mi x).2 * k.Q * k.P + (q * k.P + tid))

theorem big_diagSum (k : DiagK) (mi mo : List EMode) (x ci y co e tid : Nat) (s : Vals α) :
    Big (diagSum k mi mo x ci y co e tid) s (diagTerm k mi mo s x ci y co e tid) s := by
  unfold diagTerm
  rw [← zero_add (∑ q ∈ range k.Q, _), ← foldl_sum]
  refine big_forIn_pure (l := List.range k.Q) (s := s) (g := fun q r => r +
    s (.table (diagTab true (dirAt mo y).1)) ((dirAt mo y).2 * k.Q * k.P + (q * k.P + tid)) *
    s .u (((((x * k.nc + ci) * k.eO + y) * k.nc + co) * k.ne + e) * k.Q + q) *
    s (.table (diagTab false (dirAt mi x).1)) ((dirAt mi x).2 * k.Q * k.P + (q * k.P + tid))) (fun q _ r => ?_) 0
  exact big_bind (big_rd _ _ _) (big_bind (big_rd _ _ _) (big_bind (big_rd _ _ _) (big_pure _ _)))

theorem diagTerm_loc {k : DiagK} {mi mo : List EMode} {s s' : Vals α} (h : ∀ a i, roUT a i → s a i = s' a i)
    (x ci y co e tid : Nat) : diagTerm k mi mo s x ci y co e tid = diagTerm k mi mo s' x ci y co e tid := by
  unfold diagTerm
  refine Finset.sum_congr rfl fun q _ => ?_
  rw [h _ _ (.inl rfl), h _ _ (.inr ⟨_, rfl⟩), h _ _ (.inr ⟨_, rfl⟩)]

theorem addsV_inc (k : DiagK) (mi mo : List EMode) (x ci y co e tid i : Nat) :
    AddsV (α := α) (fun s j => if j = i then diagTerm k mi mo s x ci y co e tid else 0) (do
      let r ← diagSum k mi mo x ci y co e tid
      incV i r) := by
  refine ⟨fun s => ?_, fun s s' hs => by rw [diagTerm_loc hs]⟩
  have b := big_bind (big_diagSum k mi mo x ci y co e tid s)
    (f := fun r => incV i r) (big_bind (big_rd .v ((i : Nat) : Int) s) (big_wr .v ((i : Nat) : Int) _ s))
  convert b using 1
  funext a j
  rw [Int.toNat_natCast]
  by_cases ha : a = .v
  · subst ha
    rw [if_pos rfl]
    by_cases hj : j = i
    · subst hj
      rw [if_pos rfl, upd_same]
    · rw [if_neg hj, add_zero, upd_other]
      rintro ⟨-, h⟩
      exact hj h
  · rw [if_neg ha, upd_other]
    rintro ⟨h, -⟩
    exact ha h

/-- Number of blocks of entries in `elem_diag`. -/
def DiagK.N (k : DiagK) (pb : Bool) : Nat := if pb then k.nc * k.nc else k.nc

/-- Components of block `c`. -/
def DiagK.co (k : DiagK) (pb : Bool) (c : Nat) : Nat := if pb then c / k.nc else c
def DiagK.ci (k : DiagK) (pb : Bool) (c : Nat) : Nat := if pb then c % k.nc else c

theorem addsV_comps (k : DiagK) (pb : Bool) (mi mo : List EMode) (x y e tid : Nat) :
    AddsV (α := α) (fun s j => ∑ c ∈ range (k.N pb), if j = (c * k.ne + e) * k.P + tid then
      diagTerm k mi mo s x (k.ci pb c) y (k.co pb c) e tid else 0) (diagComps k pb mi mo x y e tid) := by
  unfold diagComps
  cases pb with
  | false => exact addsV_forN fun c _ => addsV_inc k mi mo x c y c e tid _
  | true =>
    have h := addsV_forN (n := k.nc) (fun co _ => addsV_forN (n := k.nc) (fun ci _ =>
      addsV_inc (α := α) k mi mo x ci y co e tid (((co * k.nc + ci) * k.ne + e) * k.P + tid)))
    simp only [if_true]
    convert h using 1
    funext s j
    unfold DiagK.N DiagK.ci DiagK.co
    simp only [if_true]
    rw [Restriction.sum_range_mul]
    refine Finset.sum_congr rfl fun co _ => Finset.sum_congr rfl fun ci hci => ?_
    rw [Finset.mem_range] at hci
    rw [div_enc hci, mod_enc hci]

/-- The value for block `c` of entries. -/
def diagVal (k : DiagK) (pb : Bool) (mi mo : List EMode) (s : Vals α) (c e tid : Nat) : α :=
  ∑ y ∈ range mo.length, ∑ x ∈ range mi.length, diagTerm k mi mo s x (k.ci pb c) y (k.co pb c) e tid

theorem addsV_elem (k : DiagK) (pb : Bool) (mi mo : List EMode) (e tid : Nat) :
    AddsV (α := α) (fun s j => ∑ c ∈ range (k.N pb), if j = (c * k.ne + e) * k.P + tid then
      diagVal k pb mi mo s c e tid else 0)
      (forN mo.length (fun y _ => forN mi.length (fun x _ => diagComps k pb mi mo x y e tid) ()) ()) := by
  have h := addsV_forN (n := mo.length) (fun y _ => addsV_forN (n := mi.length) (fun x _ =>
    addsV_comps (α := α) k pb mi mo x y e tid))
  convert h using 1
  funext s j
  rw [Finset.sum_congr rfl fun y _ => Finset.sum_comm, Finset.sum_comm]
  refine Finset.sum_congr rfl fun c _ => ?_
  unfold diagVal
  split
  · rfl
  · rw [Finset.sum_eq_zero]
    exact fun _ _ => Finset.sum_eq_zero fun _ _ => rfl

/-! ## Threads -/

/-- Entries of the memory the kernel needs. -/
structure DiagMem (k : DiagK) (pb : Bool) (mi mo : List EMode) (m : Mem α) : Prop where
  eO : k.eO = mo.length
  tIn : ∀ x < mi.length, ((dirAt mi x).2 + 1) * (k.Q * k.P) ≤ m.len (.table (diagTab false (dirAt mi x).1))
  tOut : ∀ y < mo.length, ((dirAt mo y).2 + 1) * (k.Q * k.P) ≤ m.len (.table (diagTab true (dirAt mo y).1))
  qf : mi.length * k.nc * mo.length * k.nc * k.ne * k.Q ≤ m.len .u
  v : k.N pb * k.ne * k.P ≤ m.len .v

/-- Entries of element `e` and node `t`. -/
def diagOwn (k : DiagK) (pb : Bool) (t e : Nat) (a : Arr) (i : Nat) : Prop := a = .v ∧ ∃ c < k.N pb, i = (c * k.ne + e) * k.P + t

/-- The result at a position of `elem_diag`. -/
def diagAt (k : DiagK) (pb : Bool) (mi mo : List EMode) (s : Vals α) (j : Nat) : α :=
  s .v j + diagVal k pb mi mo s (j / k.P / k.ne) (j / k.P % k.ne) (j % k.P)

theorem diagAt_pos {k : DiagK} {pb : Bool} {mi mo : List EMode} (s : Vals α) {c e t : Nat} (he : e < k.ne) (ht : t < k.P) :
    diagAt k pb mi mo s ((c * k.ne + e) * k.P + t) =
      s .v ((c * k.ne + e) * k.P + t) + diagVal k pb mi mo s c e t := by
  unfold diagAt
  rw [div_enc ht, mod_enc ht, div_enc he, mod_enc he]

theorem diagVal_loc {k : DiagK} {pb : Bool} {mi mo : List EMode} {s s' : Vals α} (h : ∀ a i, roUT a i → s a i = s' a i)
    (c e t : Nat) : diagVal k pb mi mo s c e t = diagVal k pb mi mo s' c e t := by
  unfold diagVal
  exact Finset.sum_congr rfl fun y _ => Finset.sum_congr rfl fun x _ => diagTerm_loc h _ _ _ _ _ _

theorem diagPos_inj {k : DiagK} {c e t c' e' t' : Nat} (he : e < k.ne) (ht : t < k.P) (he' : e' < k.ne) (ht' : t' < k.P)
    (h : (c * k.ne + e) * k.P + t = (c' * k.ne + e') * k.P + t') : c = c' ∧ e = e' ∧ t = t' := by
  have h1 := mod_enc (a := c * k.ne + e) ht
  rw [h, mod_enc ht'] at h1
  have h2 := div_enc (a := c * k.ne + e) ht
  rw [h, div_enc ht'] at h2
  have h3 := mod_enc (a := c) he
  rw [← h2, mod_enc he'] at h3
  have h4 := div_enc (a := c) he
  rw [← h2, div_enc he'] at h4
  exact ⟨h4.symm, h3.symm, h1.symm⟩

section
variable {k : DiagK} {pb : Bool} {mi mo : List EMode} {m : Mem α}

theorem DiagK.ci_lt {c : Nat} (hc : c < k.N pb) : k.ci pb c < k.nc := by
  unfold DiagK.N at hc
  unfold DiagK.ci
  cases pb with
  | false => simpa using hc
  | true =>
    simp only [if_true] at hc ⊢
    exact (dec_lt hc).2

theorem DiagK.co_lt {c : Nat} (hc : c < k.N pb) : k.co pb c < k.nc := by
  unfold DiagK.N at hc
  unfold DiagK.co
  cases pb with
  | false => simpa using hc
  | true =>
    simp only [if_true] at hc ⊢
    exact (dec_lt hc).1

theorem safe_diagSum (hm : DiagMem k pb mi mo m) {own : Arr → Nat → Prop} {x ci y co e tid : Nat} (hx : x < mi.length)
    (hci : ci < k.nc) (hy : y < mo.length) (hco : co < k.nc) (he : e < k.ne) (ht : tid < k.P) :
    SafeP own roUT m.len (diagSum (α := α) k mi mo x ci y co e tid) := by
  refine safeP_forN (fun q hq r => ?_) 0
  refine safeP_bind (safeP_rd ⟨Int.natCast_nonneg _, ?_⟩ (.inr (.inl rfl))) fun b =>
    safeP_bind (safeP_rd ⟨Int.natCast_nonneg _, ?_⟩ (.inr (.inr ⟨_, rfl⟩))) fun d =>
    safeP_bind (safeP_rd ⟨Int.natCast_nonneg _, ?_⟩ (.inr (.inr ⟨_, rfl⟩))) fun c => safeP_pure _
  · have h := hm.qf
    have := enc_lt (enc_lt (enc_lt (enc_lt (enc_lt hx hci) hy) hco) he) hq
    rw [hm.eO]
    omega
  · have h := hm.tOut y hy
    have := enc_lt hq ht
    have e1 : (dirAt mo y).2 * k.Q * k.P = (dirAt mo y).2 * (k.Q * k.P) := Nat.mul_assoc _ _ _
    have e2 : ((dirAt mo y).2 + 1) * (k.Q * k.P) = (dirAt mo y).2 * (k.Q * k.P) + k.Q * k.P := Nat.succ_mul _ _
    omega
  · have h := hm.tIn x hx
    have := enc_lt hq ht
    have e1 : (dirAt mi x).2 * k.Q * k.P = (dirAt mi x).2 * (k.Q * k.P) := Nat.mul_assoc _ _ _
    have e2 : ((dirAt mi x).2 + 1) * (k.Q * k.P) = (dirAt mi x).2 * (k.Q * k.P) + k.Q * k.P := Nat.succ_mul _ _
    omega

omit [CommRing α] in
theorem diagPos_lt (hv : k.N pb * k.ne * k.P ≤ m.len .v) {c e t : Nat} (hc : c < k.N pb) (he : e < k.ne) (ht : t < k.P) :
    (c * k.ne + e) * k.P + t < m.len .v := by
  have := enc_lt (enc_lt hc he) ht
  omega

theorem safe_inc (hm : DiagMem k pb mi mo m) {own : Arr → Nat → Prop} {c e t : Nat} {r : α} (hc : c < k.N pb) (he : e < k.ne)
    (ht : t < k.P) (ho : own .v ((c * k.ne + e) * k.P + t)) :
    SafeP own roUT m.len (incV ((c * k.ne + e) * k.P + t) r) := by
  have hlt := diagPos_lt hm.v hc he ht
  refine safeP_bind (safeP_rd ⟨Int.natCast_nonneg _, ?_⟩ (.inl ?_)) fun y => safeP_wr ⟨Int.natCast_nonneg _, ?_⟩ ?_
  · exact_mod_cast hlt
  · rwa [Int.toNat_natCast]
  · exact_mod_cast hlt
  · rwa [Int.toNat_natCast]

theorem safe_comps (hm : DiagMem k pb mi mo m) {own : Arr → Nat → Prop} {x y e t : Nat} (hx : x < mi.length)
    (hy : y < mo.length) (he : e < k.ne) (ht : t < k.P) (ho : ∀ c < k.N pb, own .v ((c * k.ne + e) * k.P + t)) :
    SafeP own roUT m.len (diagComps (α := α) k pb mi mo x y e t) := by
  unfold diagComps
  refine safeP_forN (fun co hco _ => ?_) ()
  split
  · next hp =>
    subst hp
    refine safeP_forN (fun ci hci _ => ?_) ()
    have hc : co * k.nc + ci < k.N true := enc_lt hco hci
    exact safeP_bind (safe_diagSum hm hx hci hy hco he ht) fun r => safe_inc hm hc he ht (ho _ hc)
  · next hp =>
    have hp : pb = false := by simpa using hp
    subst hp
    exact safeP_bind (safe_diagSum hm hx hco hy hco he ht) fun r => safe_inc hm hco he ht (ho _ hco)

theorem diag_thread (hm : DiagMem k pb mi mo m) {G b t : Nat} (hb : b < G) (ht : t < k.P) :
    Piece (fun a i => ∃ e ∈ strideList k.ne G k.ne b, diagOwn k pb t e a i) roUT m.len
      (setV (diagAt (α := α) k pb mi mo)) (diagKernel k pb mi mo G b t) := by
  unfold diagKernel
  rw [if_neg (by omega)]
  have he : ∀ e ∈ strideList k.ne G k.ne b, e < k.ne := fun e h => ((mem_strideS hb).mp h).1
  refine piece_forIn (nodup_strideList (by omega) _ _) (fun e h1 => ?_) (fun e h1 s => ?_) ?_ ?_ ?_
  · exact safeP_forN (fun y hy _ => safeP_forN (fun x hx _ => safe_comps hm hx hy (he e h1) ht
      fun c hc => ⟨e, h1, rfl, c, hc, rfl⟩) ()) ()
  · refine ⟨_, (addsV_elem k pb mi mo e t).big s, ?_, ?_⟩
    · rintro a i ⟨rfl, c, hc, rfl⟩
      rw [if_pos rfl, setV, if_pos rfl, diagAt_pos s (he e h1) ht, Finset.sum_eq_single c]
      · rw [if_pos rfl]
      · intro c' _ hne
        rw [if_neg]
        intro hh
        exact hne (diagPos_inj (he e h1) ht (he e h1) ht hh).1.symm
      · intro hh
        exact absurd (Finset.mem_range.2 hc) hh
    · intro a i hno
      split
      · next ha =>
        subst ha
        rw [Finset.sum_eq_zero, add_zero]
        intro c hc
        rw [if_neg]
        intro hh
        exact hno ⟨rfl, c, Finset.mem_range.1 hc, hh⟩
      · rfl
  · rintro e h1 e' h1' a i ⟨-, c, -, e1⟩ ⟨-, c', -, e2⟩
    exact (diagPos_inj (he e h1) ht (he e' h1') ht (e1.symm.trans e2)).2.1
  · rintro e - a i ⟨rfl, -⟩ (h | ⟨j, h⟩) <;> cases h
  · rintro e h1 s s' hs a i ⟨rfl, c, hc, rfl⟩
    rw [setV, setV, if_pos rfl, if_pos rfl, diagAt_pos s (he e h1) ht, diagAt_pos s' (he e h1) ht,
      hs .v _ (.inl ⟨rfl, c, hc, rfl⟩), diagVal_loc fun a i hr => hs a i (.inr hr)]

/-- The kernel, on any grid of blocks with a thread for every node. -/
theorem diag_runs {G : Nat} (hG : 0 < G) (hP : 0 < k.P) (hm : DiagMem k pb mi mo m) :
    Runs G k.P (launch (diagKernel k pb mi mo G) m) fun s =>
      ∀ c < k.N pb, ∀ e < k.ne, ∀ t < k.P,
        s .v ((c * k.ne + e) * k.P + t) = m.val .v ((c * k.ne + e) * k.P + t) + diagVal k pb mi mo m.val c e t := by
  refine runs_pieces hP (fun b t a i => ∃ e ∈ strideList k.ne G k.ne b, diagOwn k pb t e a i) roUT
    (setV (diagAt k pb mi mo)) (fun b hb t ht => diag_thread hm hb ht) (fun b hb t ht b' hb' t' ht' a i h h' => ?_)
    (fun b hb t ht a i h hr => ?_) fun s h1 h2 c hc e he t ht => ?_
  · obtain ⟨e, g1, -, c, -, e1⟩ := h
    obtain ⟨e', g1', -, c', -, e2⟩ := h'
    rw [mem_strideS hb] at g1
    rw [mem_strideS hb'] at g1'
    obtain ⟨-, rfl, hh⟩ := diagPos_inj g1.1 ht g1'.1 ht' (e1.symm.trans e2)
    exact ⟨g1.2.symm.trans g1'.2, hh⟩
  · obtain ⟨e, g1, rfl, -⟩ := h
    rcases hr with h | ⟨j, h⟩ <;> cases h
  · rw [h1 (e % G) (Nat.mod_lt _ hG) t ht .v _ ⟨e, (mem_strideS (Nat.mod_lt _ hG)).mpr ⟨he, rfl⟩, rfl, c, hc, rfl⟩,
      setV, if_pos rfl, diagAt_pos m.val he ht]

end

end Verif.Gpu
