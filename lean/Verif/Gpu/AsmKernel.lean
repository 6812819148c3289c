import Verif.Gpu.Asm
import Verif.Gpu.BasisNonTensor
import Verif.Operator.FullElem

/-!
# The kernel of the matrix on every schedule (helper lemmas)
-/

namespace Verif.Gpu
open Finset (range)
open Verif.Operator (epos)

variable {α : Type} [CommRing α]

/-! ## Cells: pieces that do not interfere -/

/-- The piece leaves `res s` in `o`, nothing else changed, and `res` depends only on `o` and `ro`. -/
structure Cell (o ro : Arr → Nat → Prop) (res : Vals α → Vals α) (m : K α Unit) : Prop where
  big : ∀ s, ∃ s', Big m s () s' ∧ (∀ a i, o a i → s' a i = res s a i) ∧ ∀ a i, ¬ o a i → s' a i = s a i
  apart : ∀ a i, o a i → ¬ ro a i
  loc : ∀ s s' : Vals α, (∀ a i, o a i ∨ ro a i → s a i = s' a i) → ∀ a i, o a i → res s a i = res s' a i

omit [CommRing α] in
theorem cell_forIn {β : Type} {ro : Arr → Nat → Prop} {res : Vals α → Vals α} {l : List β} {body : β → K α Unit}
    {o : β → Arr → Nat → Prop} (hd : l.Nodup) (h : ∀ x ∈ l, Cell (o x) ro res (body x))
    (hinj : ∀ x ∈ l, ∀ y ∈ l, ∀ a i, o x a i → o y a i → x = y) :
    Cell (fun a i => ∃ x ∈ l, o x a i) ro res (forIn' l (fun x _ => body x) ()) := by
  refine ⟨fun s => ?_, fun a i ⟨x, hx, ho⟩ => (h x hx).apart a i ho, fun s s' hs a i ⟨x, hx, ho⟩ =>
    (h x hx).loc s s' (fun a i hh => hs a i (hh.imp (fun hh => ⟨x, hx, hh⟩) id)) a i ho⟩
  induction l generalizing s with
  | nil => exact ⟨s, big_pure () s, fun a i ⟨x, hx, _⟩ => by simp at hx, fun _ _ _ => rfl⟩
  | cons x l ih =>
    obtain ⟨hn, hd'⟩ := List.nodup_cons.mp hd
    have hx := List.mem_cons_self (a := x) (l := l)
    have hl : ∀ y ∈ l, y ∈ x :: l := fun y hy => List.mem_cons_of_mem _ hy
    obtain ⟨s1, b1, o1, n1⟩ := (h x hx).big s
    obtain ⟨s2, b2, o2, n2⟩ := ih hd' (fun y hy => h y (hl y hy)) (fun y hy z hz => hinj y (hl y hy) z (hl z hz)) s1
    refine ⟨s2, big_bind b1 b2, fun a i ⟨y, hy, ho⟩ => ?_, fun a i hh => ?_⟩
    · by_cases hyl : ∃ z ∈ l, o z a i
      · obtain ⟨z, hz, hoz⟩ := hyl
        rw [o2 a i ⟨z, hz, hoz⟩]
        refine (h z (hl z hz)).loc s1 s (fun a' i' h' => n1 a' i' fun hox => ?_) a i hoz
        rcases h' with h' | h'
        · exact hn (hinj x hx z (hl z hz) a' i' hox h' ▸ hz)
        · exact (h x hx).apart a' i' hox h'
      · rw [n2 a i hyl]
        rcases List.mem_cons.mp hy with rfl | hy
        · exact o1 a i ho
        · exact absurd ⟨y, hy, ho⟩ hyl
    · rw [n2 a i fun ⟨z, hz, ho⟩ => hh ⟨z, hl z hz, ho⟩]
      exact n1 a i fun ho => hh ⟨x, hx, ho⟩

omit [CommRing α] in
theorem Cell.congr {o o' ro : Arr → Nat → Prop} {res : Vals α → Vals α} {m : K α Unit} (h : Cell o ro res m)
    (he : ∀ a i, o a i ↔ o' a i) : Cell o' ro res m := by
  have : o = o' := by
    funext a i
    exact propext (he a i)
  rwa [← this]

/-! ## Positions -/

theorem qfPos_eq (k : AsmK) (x ci y co e j : Nat) :
    k.qfPos x ci y co e j = ((((x * k.ncI + ci) * k.eO + y) * k.ncO + co) * k.ne + e) * k.Q + j := by
  unfold AsmK.qfPos
  simp only
  ring

theorem valPos_eq (k : AsmK) (e ci co i l : Nat) : k.valPos e ci co i l = epos k.ncI k.ncO k.nO k.nI e ci co i l := by
  unfold AsmK.valPos epos
  simp only
  ring

/-- Entries of the memory the kernel needs. -/
structure AsmMem (k : AsmK) (o : AsmO) (off : Nat) (m : Mem α) : Prop where
  tIn : k.eI * k.Q * k.nI ≤ m.len (.table 0)
  tOut : k.eO * k.Q * k.nO ≤ m.len (.table 1)
  qf : k.eI * k.ncI * k.eO * k.ncO * k.ne * k.Q ≤ m.len .u
  v : off + k.ne * k.ncI * k.ncO * k.nO * k.nI ≤ m.len .v
  oIn : ∀ b, o.oIn = some b → k.ne * k.nI ≤ b.len
  oOut : ∀ b, o.oOut = some b → k.ne * k.nO ≤ b.len
  cIn : ∀ c, o.cIn = some c → k.ne * (3 * k.nI) ≤ c.len
  cOut : ∀ c, o.cOut = some c → k.ne * (3 * k.nO) ≤ c.len

/-! ## The sum -/

/-- The value of `result` after the loops over evaluation modes and quadrature points. -/
def asmVal (k : AsmK) (s : Vals α) (e ci co i l : Nat) : α :=
  ∑ x ∈ range k.eI, ∑ y ∈ range k.eO, ∑ j ∈ range k.Q,
    s (.table 1) (y * k.Q * k.nO + j * k.nO + i) * s .u (k.qfPos x ci y co e j) *
      s (.table 0) (x * k.Q * k.nI + j * k.nI + l)

theorem big_asmSum (k : AsmK) (e ci co i l : Nat) (s : Vals α) :
    Big (asmSum k e ci co i l) s (asmVal k s e ci co i l) s := by
  have h3 : ∀ x y (r : α), Big (forN k.Q (fun j (r : α) => (do
      let b ← rd (.table 1) ((y * k.Q * k.nO + j * k.nO + i : Nat) : Int)
      let d ← rd .u ((k.qfPos x ci y co e j : Nat) : Int)
      let c ← rd (.table 0) ((x * k.Q * k.nI + j * k.nI + l : Nat) : Int)
      pure (r + b * d * c) : K α α)) r) s (r + ∑ j ∈ range k.Q,
        s (.table 1) (y * k.Q * k.nO + j * k.nO + i) * s .u (k.qfPos x ci y co e j) *
          s (.table 0) (x * k.Q * k.nI + j * k.nI + l)) s := by
    intro x y r
    rw [← foldl_sum]
    refine big_forIn_pure (l := List.range k.Q) (s := s) (g := fun j r => r +
      s (.table 1) (y * k.Q * k.nO + j * k.nO + i) * s .u (k.qfPos x ci y co e j) *
          s (.table 0) (x * k.Q * k.nI + j * k.nI + l)) (fun j _ r => ?_) r
    exact big_bind (big_rd _ _ _) (big_bind (big_rd _ _ _) (big_bind (big_rd _ _ _) (big_pure _ _)))
  have h2 : ∀ x (r : α), Big (forN k.eO (fun y (r : α) => forN k.Q (fun j (r : α) => (do
      let b ← rd (.table 1) ((y * k.Q * k.nO + j * k.nO + i : Nat) : Int)
      let d ← rd .u ((k.qfPos x ci y co e j : Nat) : Int)
      let c ← rd (.table 0) ((x * k.Q * k.nI + j * k.nI + l : Nat) : Int)
      pure (r + b * d * c) : K α α)) r) r) s (r + ∑ y ∈ range k.eO, ∑ j ∈ range k.Q,
        s (.table 1) (y * k.Q * k.nO + j * k.nO + i) * s .u (k.qfPos x ci y co e j) *
          s (.table 0) (x * k.Q * k.nI + j * k.nI + l)) s := by
    intro x r
    rw [← foldl_sum]
    exact big_forIn_pure (fun y _ r => h3 x y r) r
  have h1 := big_forIn_pure (l := List.range k.eI) (s := s) (fun x _ r => h2 x r) (0 : α)
  rw [foldl_sum, zero_add] at h1
  exact h1

theorem safe_asmSum {k : AsmK} {o : AsmO} {off : Nat} {m : Mem α} (hm : AsmMem k o off m) {own ro : Arr → Nat → Prop}
    (hro : ∀ a i, roUT a i → ro a i) {e ci co i l : Nat} (he : e < k.ne) (hci : ci < k.ncI) (hco : co < k.ncO)
    (hi : i < k.nO) (hl : l < k.nI) : SafeP own ro m.len (asmSum (α := α) k e ci co i l) := by
  refine safeP_forN (fun x hx r => safeP_forN (fun y hy r => safeP_forN (fun j hj r => ?_) r) r) 0
  refine safeP_bind (safeP_rd ⟨Int.natCast_nonneg _, ?_⟩ (.inr (hro _ _ (.inr ⟨1, rfl⟩)))) fun b =>
    safeP_bind (safeP_rd ⟨Int.natCast_nonneg _, ?_⟩ (.inr (hro _ _ (.inl rfl)))) fun d =>
    safeP_bind (safeP_rd ⟨Int.natCast_nonneg _, ?_⟩ (.inr (hro _ _ (.inr ⟨0, rfl⟩)))) fun c => safeP_pure _
  · have := enc_lt (enc_lt hy hj) hi
    have h := hm.tOut
    rw [Nat.add_mul] at this
    omega
  · have h := hm.qf
    have := enc_lt (enc_lt (enc_lt (enc_lt (enc_lt hx hci) hy) hco) he) hj
    rw [qfPos_eq]
    omega
  · have := enc_lt (enc_lt hx hj) hl
    have h := hm.tIn
    rw [Nat.add_mul] at this
    omega

/-! ## Signs -/

/-- The factor of `signIf`. -/
def sgn (o : Option (Buf Bool)) (i : Nat) : α :=
  match o with
  | none => 1
  | some b => if b.val i then -1 else 1

omit [CommRing α] in
theorem big_ird {β : Type} {c : Buf β} {i : Nat} (hi : i < c.len) (s : Vals α) :
    Big (ird c ((i : Nat) : Int) : K α β) s (c.val i) s := by
  intro k
  rw [ird_ok (Int.natCast_nonneg _) (by exact_mod_cast hi)]
  rfl

omit [CommRing α] in
theorem safeP_ird {β : Type} {own ro : Arr → Nat → Prop} {len : Arr → Nat} {c : Buf β} {i : Nat} (hi : i < c.len) :
    SafeP own ro len (ird c ((i : Nat) : Int) : K α β) := by
  intro fin k hk
  rw [ird_ok (Int.natCast_nonneg _) (by exact_mod_cast hi)]
  exact hk _

theorem big_signIf {o : Option (Buf Bool)} {i : Nat} (h : ∀ b, o = some b → i < b.len) (r : α) (s : Vals α) :
    Big (signIf o i r) s (r * sgn o i) s := by
  unfold signIf sgn
  cases o with
  | none => simp only [mul_one]; exact big_pure _ _
  | some b => exact big_bind (big_ird (h b rfl) s) (big_pure _ _)

theorem safe_signIf {own ro : Arr → Nat → Prop} {len : Arr → Nat} {o : Option (Buf Bool)} {i : Nat}
    (h : ∀ b, o = some b → i < b.len) (r : α) : SafeP own ro len (signIf o i r) := by
  unfold signIf
  cases o with
  | none => exact safeP_pure _
  | some b => exact safeP_bind (safeP_ird (h b rfl)) fun _ => safeP_pure _

/-- `result` before it is stored. -/
def asmRes (k : AsmK) (o : AsmO) (s : Vals α) (e ci co i l : Nat) : α :=
  asmVal k s e ci co i l * sgn o.oIn (k.nI * e + l) * sgn o.oOut (k.nO * e + i)

theorem asmRes_loc {k : AsmK} {o : AsmO} {s s' : Vals α} (h : ∀ a i, roUT a i → s a i = s' a i) (e ci co i l : Nat) :
    asmRes k o s e ci co i l = asmRes k o s' e ci co i l := by
  unfold asmRes asmVal
  simp only [h _ _ (Or.inl rfl), h _ _ (Or.inr ⟨0, rfl⟩), h _ _ (Or.inr ⟨1, rfl⟩)]

/-- The first lines of the loops. -/
def asmHead (k : AsmK) (o : AsmO) (e ci co i l : Nat) : K α α := do
  let r ← asmSum k e ci co i l
  let r ← signIf o.oIn (k.nI * e + l) r
  signIf o.oOut (k.nO * e + i) r

section
variable {k : AsmK} {o : AsmO} {off : Nat} {m : Mem α}

omit [CommRing α] in
theorem AsmMem.sgnIn (hm : AsmMem k o off m) {e l : Nat} (he : e < k.ne) (hl : l < k.nI) :
    ∀ b, o.oIn = some b → k.nI * e + l < b.len := fun b hb => by
  have := hm.oIn b hb
  have h := enc_lt he hl
  rw [Nat.mul_comm k.nI e]
  omega

omit [CommRing α] in
theorem AsmMem.sgnOut (hm : AsmMem k o off m) {e i : Nat} (he : e < k.ne) (hi : i < k.nO) :
    ∀ b, o.oOut = some b → k.nO * e + i < b.len := fun b hb => by
  have := hm.oOut b hb
  have h := enc_lt he hi
  rw [Nat.mul_comm k.nO e]
  omega

theorem big_head (hm : AsmMem k o off m) {e ci co i l : Nat} (he : e < k.ne) (hi : i < k.nO) (hl : l < k.nI)
    (s : Vals α) : Big (asmHead k o e ci co i l) s (asmRes k o s e ci co i l) s :=
  big_bind (big_asmSum k e ci co i l s) (big_bind (big_signIf (hm.sgnIn he hl) _ s) (big_signIf (hm.sgnOut he hi) _ s))

theorem safe_head (hm : AsmMem k o off m) {own ro : Arr → Nat → Prop} (hro : ∀ a i, roUT a i → ro a i) {e ci co i l : Nat}
    (he : e < k.ne) (hci : ci < k.ncI) (hco : co < k.ncO) (hi : i < k.nO) (hl : l < k.nI) :
    SafeP own ro m.len (asmHead (α := α) k o e ci co i l) :=
  safeP_bind (safe_asmSum hm hro he hci hco hi hl) fun _ => safeP_bind (safe_signIf (hm.sgnIn he hl) _) fun _ =>
    safe_signIf (hm.sgnOut he hi) _

/-! ## Without curl orientations -/

theorem first_plain (hI : o.cIn = none) (hO : o.cOut = none) (b e ci co l y i : Nat) :
    asmFirst (α := α) k o off b e ci co l y i =
      (do let r ← asmHead k o e ci co i l; wr .v ((off + k.valPos e ci co i l : Nat) : Int) r) := by
  unfold asmFirst
  rw [hI, hO]
  rfl

/-- Result at a position of the values. -/
def asmAt (k : AsmK) (o : AsmO) (off : Nat) (s : Vals α) (x : Nat) : α :=
  let x := x - off
  asmRes k o s (x / k.nI / k.nO / k.ncO / k.ncI) (x / k.nI / k.nO / k.ncO % k.ncI) (x / k.nI / k.nO % k.ncO)
    (x / k.nI % k.nO) (x % k.nI)

theorem epos_dec {e ci co i l : Nat} (hci : ci < k.ncI) (hco : co < k.ncO) (hi : i < k.nO) (hl : l < k.nI) :
    epos k.ncI k.ncO k.nO k.nI e ci co i l % k.nI = l ∧ epos k.ncI k.ncO k.nO k.nI e ci co i l / k.nI % k.nO = i ∧
    epos k.ncI k.ncO k.nO k.nI e ci co i l / k.nI / k.nO % k.ncO = co ∧
    epos k.ncI k.ncO k.nO k.nI e ci co i l / k.nI / k.nO / k.ncO % k.ncI = ci ∧
    epos k.ncI k.ncO k.nO k.nI e ci co i l / k.nI / k.nO / k.ncO / k.ncI = e := by
  unfold epos
  rw [div_enc hl, mod_enc hl, div_enc hi, mod_enc hi, div_enc hco, mod_enc hco, div_enc hci, mod_enc hci]
  exact ⟨rfl, rfl, rfl, rfl, rfl⟩

theorem asmAt_pos (s : Vals α) {e ci co i l : Nat} (hci : ci < k.ncI) (hco : co < k.ncO) (hi : i < k.nO) (hl : l < k.nI) :
    asmAt k o off s (off + k.valPos e ci co i l) = asmRes k o s e ci co i l := by
  unfold asmAt
  simp only
  rw [Nat.add_sub_cancel_left, valPos_eq]
  obtain ⟨h1, h2, h3, h4, h5⟩ := epos_dec (e := e) hci hco hi hl
  rw [h1, h2, h3, h4, h5]

theorem valPos_inj {e ci co i l e' ci' co' i' l' : Nat} (hci : ci < k.ncI) (hco : co < k.ncO) (hi : i < k.nO)
    (hl : l < k.nI) (hci' : ci' < k.ncI) (hco' : co' < k.ncO) (hi' : i' < k.nO) (hl' : l' < k.nI)
    (h : k.valPos e ci co i l = k.valPos e' ci' co' i' l') : e = e' ∧ ci = ci' ∧ co = co' ∧ i = i' ∧ l = l' := by
  rw [valPos_eq, valPos_eq] at h
  obtain ⟨h1, h2, h3, h4, h5⟩ := epos_dec (e := e) hci hco hi hl
  obtain ⟨g1, g2, g3, g4, g5⟩ := epos_dec (e := e') hci' hco' hi' hl'
  rw [h] at h1 h2 h3 h4 h5
  exact ⟨h5.symm.trans g5, h4.symm.trans g4, h3.symm.trans g3, h2.symm.trans g2, h1.symm.trans g1⟩

theorem valPos_lt {e ci co i l : Nat} (he : e < k.ne) (hci : ci < k.ncI) (hco : co < k.ncO) (hi : i < k.nO)
    (hl : l < k.nI) : k.valPos e ci co i l < k.ne * k.ncI * k.ncO * k.nO * k.nI := by
  rw [valPos_eq]
  exact Operator.epos_lt he hci hco hi hl

/-- One entry. -/
theorem plain_cell (hm : AsmMem k o off m) {e ci co i l : Nat} (he : e < k.ne) (hci : ci < k.ncI) (hco : co < k.ncO)
    (hi : i < k.nO) (hl : l < k.nI) :
    Cell (fun a x => a = .v ∧ x = off + k.valPos e ci co i l) roUT (setV (asmAt k o off))
      (do let r ← asmHead k o e ci co i l; wr .v ((off + k.valPos e ci co i l : Nat) : Int) r : K α Unit) := by
  refine ⟨fun s => ⟨upd s .v (off + k.valPos e ci co i l) (asmRes k o s e ci co i l), ?_, ?_, ?_⟩, ?_, ?_⟩
  · exact big_bind (big_head hm he hi hl s) (big_wr _ _ _ _)
  · rintro a x ⟨rfl, rfl⟩
    rw [upd_same, setV, if_pos rfl, asmAt_pos s hci hco hi hl]
  · intro a x h
    rw [upd_other]
    exact h
  · rintro a x ⟨rfl, rfl⟩ (h | ⟨j, h⟩) <;> cases h
  · rintro s s' h a x ⟨rfl, rfl⟩
    rw [setV, setV, if_pos rfl, if_pos rfl, asmAt_pos s hci hco hi hl, asmAt_pos s' hci hco hi hl]
    exact asmRes_loc (fun a i hr => h a i (.inr hr)) _ _ _ _ _

/-- What thread `(l, y)` of block `b` writes. -/
def plainOwn (k : AsmK) (off G b y l : Nat) (a : Arr) (x : Nat) : Prop :=
  ∃ e ∈ strideList k.ne G k.ne b, ∃ ci ∈ List.range k.ncI, ∃ co ∈ List.range k.ncO,
    ∃ i ∈ strideList k.nO k.bY k.nO y, a = .v ∧ x = off + k.valPos e ci co i l

theorem mem_strideS {n step x y : Nat} (hy : y < step) : x ∈ strideList n step n y ↔ x < n ∧ x % step = y := mem_cells hy

theorem plain_thread (hm : AsmMem k o off m) (hI : o.cIn = none) (hO : o.cOut = none) {G b t : Nat} (hb : b < G)
    (hl : t % k.nI < k.nI) (hy : t / k.nI < k.bY) :
    Piece (plainOwn k off G b (t / k.nI) (t % k.nI)) roUT m.len (setV (asmAt (α := α) k o off)) (asmKernel k o off G b t) := by
  have hk : asmKernel (α := α) k o off G b t = forIn' (strideList k.ne G k.ne b) (fun e _ =>
      forIn' (List.range k.ncI) (fun ci _ => forIn' (List.range k.ncO) (fun co _ =>
        forIn' (strideList k.nO k.bY k.nO (t / k.nI)) (fun i _ => (do
          let r ← asmHead k o e ci co i (t % k.nI)
          wr .v ((off + k.valPos e ci co i (t % k.nI) : Nat) : Int) r : K α Unit)) ()) ()) ()) () := by
    unfold asmKernel
    refine forIn_congr (fun e _ _ => forIn_congr (fun ci _ _ => forIn_congr (fun co _ _ => ?_) ()) ()) ()
    have : asmTail (α := α) k o off b e ci co (t % k.nI) (t / k.nI) = pure () := by
      unfold asmTail
      rw [hI, hO]
    rw [this]
    unfold strideFor
    simp only [first_plain (α := α) hI hO]
    rfl
  rw [hk]
  have he : ∀ e ∈ strideList k.ne G k.ne b, e < k.ne := fun e h => ((mem_strideS hb).mp h).1
  have hi : ∀ i ∈ strideList k.nO k.bY k.nO (t / k.nI), i < k.nO := fun i h => ((mem_strideS hy).mp h).1
  refine ⟨?_, ?_⟩
  · refine safeP_forIn (σ := Unit) (fun e h1 _ => safeP_forIn (σ := Unit) (fun ci h2 _ => safeP_forIn (σ := Unit)
      (fun co h3 _ => safeP_forIn (σ := Unit) (fun i h4 _ => ?_) ()) ()) ()) ()
    have h2' := List.mem_range.mp h2
    have h3' := List.mem_range.mp h3
    refine safeP_bind (safe_head hm (fun _ _ h => h) (he e h1) h2' h3' (hi i h4) hl) fun r =>
      safeP_wr ⟨Int.natCast_nonneg _, ?_⟩ ⟨e, h1, ci, h2, co, h3, i, h4, rfl, rfl⟩
    have := valPos_lt (he e h1) h2' h3' (hi i h4) hl
    have := hm.v
    omega
  · refine (cell_forIn (nodup_strideList (by omega) _ _) (fun e h1 => cell_forIn List.nodup_range (fun ci h2 =>
      cell_forIn List.nodup_range (fun co h3 => cell_forIn (nodup_strideList (Nat.zero_lt_of_lt hy) _ _) (fun i h4 =>
        plain_cell hm (he e h1) (List.mem_range.mp h2) (List.mem_range.mp h3) (hi i h4) hl) ?_) ?_) ?_) ?_).big
    · rintro i h4 i' h4' a x ⟨-, e1⟩ ⟨-, e2⟩
      exact (valPos_inj (List.mem_range.mp h2) (List.mem_range.mp h3) (hi i h4) hl (List.mem_range.mp h2)
        (List.mem_range.mp h3) (hi i' h4') hl (Nat.add_left_cancel (e1.symm.trans e2))).2.2.2.1
    · rintro co h3 co' h3' a x ⟨i, h4, -, e1⟩ ⟨i', h4', -, e2⟩
      exact (valPos_inj (List.mem_range.mp h2) (List.mem_range.mp h3) (hi i h4) hl (List.mem_range.mp h2)
        (List.mem_range.mp h3') (hi i' h4') hl (Nat.add_left_cancel (e1.symm.trans e2))).2.2.1
    · rintro ci h2 ci' h2' a x ⟨co, h3, i, h4, -, e1⟩ ⟨co', h3', i', h4', -, e2⟩
      exact (valPos_inj (List.mem_range.mp h2) (List.mem_range.mp h3) (hi i h4) hl (List.mem_range.mp h2')
        (List.mem_range.mp h3') (hi i' h4') hl (Nat.add_left_cancel (e1.symm.trans e2))).2.1
    · rintro e h1 e' h1' a x ⟨ci, h2, co, h3, i, h4, -, e1⟩ ⟨ci', h2', co', h3', i', h4', -, e2⟩
      exact (valPos_inj (List.mem_range.mp h2) (List.mem_range.mp h3) (hi i h4) hl (List.mem_range.mp h2')
        (List.mem_range.mp h3') (hi i' h4') hl (Nat.add_left_cancel (e1.symm.trans e2))).1

/-- Without curl orientations, on any grid. -/
theorem plain_runs {G : Nat} (hG : 0 < G) (hn : 0 < k.nI) (hbY : 0 < k.bY) (hm : AsmMem k o off m) (hI : o.cIn = none)
    (hO : o.cOut = none) : Runs G (k.nI * k.bY) (launch (asmKernel k o off G) m) fun s =>
      (∀ e < k.ne, ∀ ci < k.ncI, ∀ co < k.ncO, ∀ i < k.nO, ∀ l < k.nI,
        s .v (off + k.valPos e ci co i l) = asmRes k o m.val e ci co i l) ∧
      ∀ x, x < off ∨ off + k.ne * k.ncI * k.ncO * k.nO * k.nI ≤ x → s .v x = m.val .v x := by
  refine runs_pieces (Nat.mul_pos hn hbY) (fun b t => plainOwn k off G b (t / k.nI) (t % k.nI)) roUT (setV (asmAt k o off))
    (fun b hb t ht => ?_) (fun b hb t ht b' hb' t' ht' a x h h' => ?_) (fun b hb t ht a x h hr => ?_)
    fun s h1 h2 => ⟨fun e he ci hci co hco i hi l hl => ?_, fun x hx => ?_⟩
  · obtain ⟨hx, hz⟩ := thread_dec ht
    exact plain_thread hm hI hO hb hx hz
  · obtain ⟨hx, hz⟩ := thread_dec ht
    obtain ⟨hx', hz'⟩ := thread_dec ht'
    obtain ⟨e, g1, ci, g2, co, g3, i, g4, -, e1⟩ := h
    obtain ⟨e', g1', ci', g2', co', g3', i', g4', -, e2⟩ := h'
    rw [List.mem_range] at g2 g3 g2' g3'
    rw [mem_strideS hb] at g1
    rw [mem_strideS hb'] at g1'
    rw [mem_strideS hz] at g4
    rw [mem_strideS hz'] at g4'
    obtain ⟨rfl, -, -, rfl, hll⟩ := valPos_inj g2 g3 g4.1 hx g2' g3' g4'.1 hx' (Nat.add_left_cancel (e1.symm.trans e2))
    exact ⟨g1.2.symm.trans g1'.2, thread_inj hll (g4.2.symm.trans g4'.2)⟩
  · obtain ⟨e, g1, ci, g2, co, g3, i, g4, rfl, -⟩ := h
    rcases hr with h | ⟨j, h⟩ <;> cases h
  · have hlt : i % k.bY * k.nI + l < k.nI * k.bY := by
      rw [Nat.mul_comm k.nI]
      exact enc_lt (Nat.mod_lt _ hbY) hl
    rw [h1 (e % G) (Nat.mod_lt _ hG) (i % k.bY * k.nI + l) hlt .v _ ⟨e, (mem_strideS (Nat.mod_lt _ hG)).mpr ⟨he, rfl⟩, ci,
      List.mem_range.mpr hci, co, List.mem_range.mpr hco, i, ?_, rfl, by rw [mod_enc hl]⟩]
    · rw [setV, if_pos rfl, asmAt_pos m.val hci hco hi hl]
    · rw [div_enc hl]
      exact (mem_strideS (Nat.mod_lt _ hbY)).mpr ⟨hi, rfl⟩
  · refine h2 .v x fun b hb t ht ⟨e, g1, ci, g2, co, g3, i, g4, _, e1⟩ => ?_
    obtain ⟨hx', hz⟩ := thread_dec ht
    rw [List.mem_range] at g2 g3
    have := valPos_lt ((mem_strideS hb).mp g1).1 g2 g3 ((mem_strideS hz).mp g4).1 hx'
    omega

end

end Verif.Gpu
