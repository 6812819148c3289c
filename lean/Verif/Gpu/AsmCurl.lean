import Verif.Gpu.AsmKernel

/-!
# The kernel of the matrix with curl orientations on every schedule (helper lemmas)
-/

namespace Verif.Gpu
open Finset (range)

variable {α : Type} [CommRing α]

/-! ## Jobs out of cells -/

section Cells
omit [CommRing α]
variable {ro : Arr → Nat → Prop} {res : Vals α → Vals α}

theorem cell_pure : Cell (fun _ _ => False) ro res (pure () : K α Unit) :=
  ⟨fun s => ⟨s, big_pure () s, fun _ _ h => h.elim, fun _ _ _ => rfl⟩, fun _ _ h => h.elim, fun _ _ _ _ _ h => h.elim⟩

theorem cell_bind {o₁ o₂ : Arr → Nat → Prop} {m₁ m₂ : K α Unit} (h₁ : Cell o₁ ro res m₁) (h₂ : Cell o₂ ro res m₂)
    (hd : ∀ a i, o₁ a i → ¬ o₂ a i) : Cell (fun a i => o₁ a i ∨ o₂ a i) ro res (do m₁; m₂) := by
  refine ⟨fun s => ?_, fun a i h => h.elim (h₁.apart a i) (h₂.apart a i), fun s s' hs a i h => ?_⟩
  · obtain ⟨s1, b1, o1, n1⟩ := h₁.big s
    obtain ⟨s2, b2, o2, n2⟩ := h₂.big s1
    refine ⟨s2, big_bind b1 b2, fun a i h => ?_, fun a i h => ?_⟩
    · rcases h with h | h
      · rw [n2 a i (hd a i h), o1 a i h]
      · rw [o2 a i h]
        refine h₂.loc s1 s (fun a' i' h' => n1 a' i' fun ho => ?_) a i h
        rcases h' with h' | h'
        · exact hd a' i' ho h'
        · exact h₁.apart a' i' ho h'
    · rw [n2 a i fun h' => h (.inr h'), n1 a i fun h' => h (.inl h')]
  · rcases h with h | h
    · exact h₁.loc s s' (fun a i h' => hs a i (h'.imp .inl id)) a i h
    · exact h₂.loc s s' (fun a i h' => hs a i (h'.imp .inr id)) a i h

open Classical in
/-- A job whose cells leave `res`. -/
noncomputable def cellJob (n : Nat) (body : Nat → K α Unit) (outs : Nat → Arr → Nat → Prop) (ro : Arr → Nat → Prop)
    (res : Vals α → Vals α) : Job α :=
  ⟨n, body, outs, ro, fun s a x => if ∃ c < n, outs c a x then res s a x else s a x⟩

theorem eff_in {n : Nat} {body : Nat → K α Unit} {outs : Nat → Arr → Nat → Prop} {s : Vals α} {a : Arr} {x : Nat}
    (h : ∃ c < n, outs c a x) : (cellJob n body outs ro res).eff s a x = res s a x := if_pos h

theorem eff_out {n : Nat} {body : Nat → K α Unit} {outs : Nat → Arr → Nat → Prop} {s : Vals α} {a : Arr} {x : Nat}
    (h : ¬ ∃ c < n, outs c a x) : (cellJob n body outs ro res).eff s a x = s a x := if_neg h

theorem cellJob_ok {n : Nat} {body : Nat → K α Unit} {outs : Nat → Arr → Nat → Prop} {len : Arr → Nat}
    (hc : ∀ c < n, Cell (outs c) ro res (body c))
    (hinj : ∀ c < n, ∀ c' < n, ∀ a i, outs c a i → outs c' a i → c = c')
    (hs : ∀ c < n, ∀ own : Arr → Nat → Prop, (∀ a i, outs c a i → own a i) → SafeP own ro len (body c)) :
    (cellJob n body outs ro res).Ok len := by
  refine ⟨hinj, fun c h => (hc c h).apart, hs, fun c h s => ?_, fun c h s s' hh a i ho => ?_, fun s a i hh => ?_⟩
  · obtain ⟨s', b, h1, h2⟩ := (hc c h).big s
    exact ⟨s', b, fun a i ho => by rw [h1 a i ho]; exact (eff_in ⟨c, h, ho⟩).symm, h2⟩
  · have hx : ∃ c < n, outs c a i := ⟨c, h, ho⟩
    rw [eff_in hx, eff_in hx]
    exact (hc c h).loc s s' hh a i ho
  · exact eff_out fun ⟨c, h, ho⟩ => hh c h ho

end Cells

/-! ## The tridiagonal product -/

/-- What `curlDot` computes from the entries `X`. -/
def curlVal (c : Buf Int) (N e l : Nat) (X : Nat → α) : α :=
  (if 0 < l then X (l - 1) * ((c.val (3 * N * e + 3 * l - 1) : Int) : α) else 0) +
    X l * ((c.val (3 * N * e + 3 * l + 1) : Int) : α) +
    (if l + 1 < N then X (l + 1) * ((c.val (3 * N * e + 3 * l + 3) : Int) : α) else 0)

theorem curlVal_congr {c : Buf Int} {N e l : Nat} (hl : l < N) {X Y : Nat → α} (h : ∀ n < N, X n = Y n) :
    curlVal c N e l X = curlVal c N e l Y := by
  unfold curlVal
  rw [h l hl]
  congr 1
  · congr 1
    split
    · rw [h (l - 1) (by omega)]
    · rfl
  · split
    next hh => rw [h _ hh]
    · rfl

theorem curl_in {ne N e x : Nat} {c : Buf Int} (hc : ne * (3 * N) ≤ c.len) (he : e < ne) (hx : x < 3 * N) :
    3 * N * e + x < c.len := by
  have := enc_lt he hx
  rw [Nat.mul_comm (3 * N) e]
  omega

theorem big_curlDot {ne N e l : Nat} {c : Buf Int} (hc : ne * (3 * N) ≤ c.len) (he : e < ne) (hl : l < N) (a : Arr)
    (pos : Nat → Nat) (s : Vals α) : Big (curlDot c a pos N e l) s (curlVal c N e l fun n => s a (pos n)) s := by
  unfold curlDot curlVal
  have hx : Big (if 0 < l then (do
      let s ← rd a ((pos (l - 1) : Nat) : Int)
      let o ← ird c ((3 * N * e + 3 * l - 1 : Nat) : Int)
      pure (s * (o : α))) else pure 0 : K α α) s
      (if 0 < l then s a (pos (l - 1)) * ((c.val (3 * N * e + 3 * l - 1) : Int) : α) else 0) s := by
    by_cases h : 0 < l
    · rw [if_pos h, if_pos h]
      refine big_bind (big_rd _ _ _) (big_bind (big_ird ?_ s) (big_pure _ _))
      rw [Nat.add_sub_assoc (by omega)]
      exact curl_in hc he (by omega)
    · rw [if_neg h, if_neg h]
      exact big_pure _ _
  have hz : Big (if l + 1 < N then (do
      let s ← rd a ((pos (l + 1) : Nat) : Int)
      let o ← ird c ((3 * N * e + 3 * l + 3 : Nat) : Int)
      pure (s * (o : α))) else pure 0 : K α α) s
      (if l + 1 < N then s a (pos (l + 1)) * ((c.val (3 * N * e + 3 * l + 3) : Int) : α) else 0) s := by
    by_cases h : l + 1 < N
    · rw [if_pos h, if_pos h]
      refine big_bind (big_rd _ _ _) (big_bind (big_ird ?_ s) (big_pure _ _))
      rw [Nat.add_assoc]
      exact curl_in hc he (by omega)
    · rw [if_neg h, if_neg h]
      exact big_pure _ _
  refine big_bind hx (big_bind (big_rd _ _ _) (big_bind (big_ird ?_ s) (big_bind hz (big_pure _ _))))
  rw [Nat.add_assoc]
  exact curl_in hc he (by omega)

theorem safe_curlDot {ne N e l : Nat} {c : Buf Int} (hc : ne * (3 * N) ≤ c.len) (he : e < ne) (hl : l < N) {a : Arr}
    {pos : Nat → Nat} {own ro : Arr → Nat → Prop} {len : Arr → Nat} (hp : ∀ n < N, pos n < len a)
    (hr : ∀ n < N, ro a (pos n)) : SafeP own ro len (curlDot (α := α) c a pos N e l) := by
  have hrd : ∀ n < N, SafeP own ro len (rd a ((pos n : Nat) : Int) : K α α) := fun n hn =>
    safeP_rd ⟨Int.natCast_nonneg _, by have := hp n hn; omega⟩ (.inr (by rw [Int.toNat_natCast]; exact hr n hn))
  unfold curlDot
  refine safeP_bind ?_ fun x => safeP_bind (hrd l hl) fun s => safeP_bind (safeP_ird ?_) fun o => safeP_bind ?_ fun z =>
    safeP_pure _
  · by_cases h : 0 < l
    · rw [if_pos h]
      refine safeP_bind (hrd _ (by omega)) fun s => safeP_bind (safeP_ird ?_) fun o => safeP_pure _
      rw [Nat.add_sub_assoc (by omega)]
      exact curl_in hc he (by omega)
    · rw [if_neg h]
      exact safeP_pure _
  · rw [Nat.add_assoc]
    exact curl_in hc he (by omega)
  · by_cases h : l + 1 < N
    · rw [if_pos h]
      refine safeP_bind (hrd _ (by omega)) fun s => safeP_bind (safeP_ird ?_) fun o => safeP_pure _
      rw [Nat.add_assoc]
      exact curl_in hc he (by omega)
    · rw [if_neg h]
      exact safeP_pure _

/-! ## The three pieces -/

section
variable (k : AsmK) (o : AsmO) (cI cO : Buf Int) (off b : Nat)

/-- Lines 51-77. -/
def pieceA (p : Nat × Nat) (c : Nat) : K α Unit := do
  let r ← asmHead k o b p.1 p.2 (c / k.nI) (c % k.nI)
  wr (.shared b 0) ((k.nO * k.nI + (k.nI * (c / k.nI) + c % k.nI) : Nat) : Int) r

/-- Lines 79-84. -/
def pieceB (c : Nat) : K α Unit := do
  let x ← curlDot cI (.shared b 0) (fun n => k.nO * k.nI + (k.nI * (c / k.nI) + n)) k.nI b (c % k.nI)
  wr (.shared b 0) ((k.nI * (c / k.nI) + c % k.nI : Nat) : Int) x

/-- Lines 93-103. -/
def pieceC (p : Nat × Nat) (c : Nat) : K α Unit := do
  let x ← curlDot cO (.shared b 0) (fun n => k.nI * n + c % k.nI) k.nO b (c / k.nI)
  wr .v ((off + k.valPos b p.1 p.2 (c / k.nI) (c % k.nI) : Nat) : Int) x

def pieceCA (pre nxt : Option (Nat × Nat)) (c : Nat) : K α Unit := do
  (match pre with
    | some p => pieceC k cO off b p c
    | none => pure () : K α Unit)
  (match nxt with
    | some p => pieceA k o b p c
    | none => pure () : K α Unit)

def outsC (pre : Option (Nat × Nat)) (c : Nat) (a : Arr) (x : Nat) : Prop :=
  ∃ p, pre = some p ∧ a = .v ∧ x = off + k.valPos b p.1 p.2 (c / k.nI) (c % k.nI)

def outsA (nxt : Option (Nat × Nat)) (c : Nat) (a : Arr) (x : Nat) : Prop :=
  nxt ≠ none ∧ a = .shared b 0 ∧ x = k.nO * k.nI + c

def roCA (a : Arr) (x : Nat) : Prop := roUT a x ∨ (a = .shared b 0 ∧ x < k.nO * k.nI)

def roB (a : Arr) (x : Nat) : Prop := a = .shared b 0 ∧ k.nO * k.nI ≤ x

def resCA (nxt : Option (Nat × Nat)) (s : Vals α) (a : Arr) (x : Nat) : α :=
  if a = .v then
    curlVal cO k.nO b ((x - off) / k.nI % k.nO) fun n => s (.shared b 0) (k.nI * n + (x - off) % k.nI)
  else match nxt with
    | some p => asmRes k o s b p.1 p.2 ((x - k.nO * k.nI) / k.nI) ((x - k.nO * k.nI) % k.nI)
    | none => 0

def resB (s : Vals α) (_ : Arr) (x : Nat) : α :=
  curlVal cI k.nI b (x % k.nI) fun n => s (.shared b 0) (k.nO * k.nI + (k.nI * (x / k.nI) + n))

noncomputable def jobCA (pre nxt : Option (Nat × Nat)) : Job α :=
  cellJob (k.nI * k.nO) (pieceCA k o cO off b pre nxt) (fun c a x => outsC k off b pre c a x ∨ outsA k b nxt c a x)
    (roCA k b) (resCA k o cO off b nxt)

noncomputable def jobB : Job α :=
  cellJob (k.nI * k.nO) (pieceB k cI b) (fun c a x => a = .shared b 0 ∧ x = c) (roB k b) (resB k cI b)

end

section
variable {k : AsmK} {o : AsmO} {cI cO : Buf Int} {off b : Nat} {m : Mem α}

theorem resCA_v (nxt : Option (Nat × Nat)) (s : Vals α) (x : Nat) : resCA k o cO off b nxt s .v x =
    curlVal cO k.nO b ((x - off) / k.nI % k.nO) fun n => s (.shared b 0) (k.nI * n + (x - off) % k.nI) := by
  unfold resCA
  exact if_pos rfl

theorem resCA_hi (p : Nat × Nat) (s : Vals α) (x : Nat) : resCA k o cO off b (some p) s (.shared b 0) x =
    asmRes k o s b p.1 p.2 ((x - k.nO * k.nI) / k.nI) ((x - k.nO * k.nI) % k.nI) := by
  unfold resCA
  exact if_neg (by intro h; cases h)

theorem valPos_dec {e ci co i l : Nat} (hci : ci < k.ncI) (hco : co < k.ncO) (hi : i < k.nO) (hl : l < k.nI) :
    (off + k.valPos e ci co i l - off) / k.nI % k.nO = i ∧ (off + k.valPos e ci co i l - off) % k.nI = l := by
  rw [Nat.add_sub_cancel_left, valPos_eq]
  obtain ⟨h1, h2, -⟩ := epos_dec (e := e) hci hco hi hl
  exact ⟨h2, h1⟩

theorem cellC (hm : AsmMem k o off m) (hO : o.cOut = some cO) (hb : b < k.ne) {p : Nat × Nat} (hp : p.1 < k.ncI ∧ p.2 < k.ncO)
    {c : Nat} (hc : c < k.nI * k.nO) (nxt : Option (Nat × Nat)) :
    Cell (outsC k off b (some p) c) (roCA k b) (resCA k o cO off b nxt) (pieceC (α := α) k cO off b p c) := by
  obtain ⟨hl, hi⟩ := thread_dec hc
  obtain ⟨d1, d2⟩ := valPos_dec (k := k) (off := off) (e := b) hp.1 hp.2 hi hl
  refine ⟨fun s => ⟨upd s .v (off + k.valPos b p.1 p.2 (c / k.nI) (c % k.nI)) _,
    big_bind (big_curlDot (hm.cOut cO hO) hb hi _ _ s) (big_wr _ _ _ _), ?_, ?_⟩, ?_, ?_⟩
  · rintro a x ⟨p', hp', rfl, rfl⟩
    cases hp'
    rw [upd_same, resCA_v, d1, d2]
  · intro a x h
    exact upd_other _ _ fun ⟨e1, e2⟩ => h ⟨p, rfl, e1, e2⟩
  · rintro a x ⟨p', hp', rfl, rfl⟩ ((h | ⟨j, h⟩) | ⟨h, -⟩) <;> cases h
  · rintro s s' h a x ⟨p', hp', rfl, rfl⟩
    cases hp'
    rw [resCA_v, resCA_v, d1, d2]
    refine curlVal_congr hi fun n hn => h _ _ (.inr (.inr ⟨rfl, ?_⟩))
    rw [Nat.mul_comm k.nI n]
    exact enc_lt hn hl

theorem cellA (hm : AsmMem k o off m) (hb : b < k.ne) (p : Nat × Nat) {c : Nat} (hc : c < k.nI * k.nO) :
    Cell (outsA k b (some p) c) (roCA k b) (resCA k o cO off b (some p)) (pieceA (α := α) k o b p c) := by
  obtain ⟨hl, hi⟩ := thread_dec hc
  refine ⟨fun s => ⟨upd s (.shared b 0) (k.nO * k.nI + (k.nI * (c / k.nI) + c % k.nI)) _,
    big_bind (big_head hm hb hi hl s) (big_wr _ _ _ _), ?_, ?_⟩, ?_, ?_⟩
  · rintro a x ⟨-, rfl, rfl⟩
    rw [Nat.div_add_mod, upd_same, resCA_hi, Nat.add_sub_cancel_left]
  · intro a x h
    rw [Nat.div_add_mod]
    exact upd_other _ _ fun ⟨e1, e2⟩ => h ⟨by simp, e1, e2⟩
  · rintro a x ⟨-, rfl, rfl⟩ ((h | ⟨j, h⟩) | ⟨h, h'⟩)
    · cases h
    · cases h
    · omega
  · rintro s s' h a x ⟨-, rfl, rfl⟩
    rw [resCA_hi, resCA_hi]
    exact asmRes_loc (fun a i hr => h a i (.inr (.inl hr))) _ _ _ _ _

theorem jobCA_ok (hm : AsmMem k o off m) (hO : o.cOut = some cO) (hb : b < k.ne)
    (hs : k.nO * k.nI + k.nI * k.nO ≤ m.len (.shared b 0)) {pre nxt : Option (Nat × Nat)}
    (hpre : ∀ p, pre = some p → p.1 < k.ncI ∧ p.2 < k.ncO) (hnxt : ∀ p, nxt = some p → p.1 < k.ncI ∧ p.2 < k.ncO) :
    (jobCA (α := α) k o cO off b pre nxt).Ok m.len := by
  refine cellJob_ok (fun c hc => ?_) (fun c hc c' hc' a x h h' => ?_) (fun c hc own ho => ?_)
  · refine cell_bind ?_ ?_ ?_
    · cases pre with
      | none => exact cell_pure.congr fun a i => ⟨fun h => h.elim, fun ⟨p, hp, _⟩ => by cases hp⟩
      | some p => exact cellC hm hO hb (hpre p rfl) hc nxt
    · cases nxt with
      | none => exact cell_pure.congr fun a i => ⟨fun h => h.elim, fun ⟨h, _⟩ => h rfl⟩
      | some p => exact cellA hm hb p hc
    · rintro a x ⟨p, -, rfl, -⟩ ⟨-, h, -⟩
      cases h
  · obtain ⟨hl, hi⟩ := thread_dec hc
    obtain ⟨hl', hi'⟩ := thread_dec hc'
    rcases h with ⟨p, hp, rfl, e1⟩ | ⟨-, rfl, e1⟩
    · rcases h' with ⟨p', hp', -, e2⟩ | ⟨-, h, -⟩
      · rw [hp] at hp'
        cases hp'
        obtain ⟨h1, h2⟩ := hpre p hp
        obtain ⟨-, -, -, g1, g2⟩ := valPos_inj h1 h2 hi hl h1 h2 hi' hl' (Nat.add_left_cancel (e1.symm.trans e2))
        exact thread_inj g2 g1
      · cases h
    · rcases h' with ⟨p', hp', h, e2⟩ | ⟨-, -, e2⟩
      · cases h
      · omega
  · obtain ⟨hl, hi⟩ := thread_dec hc
    refine safeP_bind ?_ fun _ => ?_
    · cases pre with
      | none => exact safeP_pure _
      | some p =>
        obtain ⟨h1, h2⟩ := hpre p rfl
        refine safeP_bind (safe_curlDot (hm.cOut cO hO) hb hi (fun n hn => ?_) (fun n hn => .inr ⟨rfl, ?_⟩)) fun x =>
          safeP_wr ⟨Int.natCast_nonneg _, ?_⟩ (ho _ _ (.inl ⟨p, rfl, rfl, rfl⟩))
        · have := enc_lt hn hl
          rw [Nat.mul_comm k.nI n]
          omega
        · rw [Nat.mul_comm k.nI n]
          exact enc_lt hn hl
        · have := valPos_lt (k := k) hb h1 h2 hi hl
          have := hm.v
          omega
    · cases nxt with
      | none => exact safeP_pure _
      | some p =>
        obtain ⟨h1, h2⟩ := hnxt p rfl
        refine safeP_bind (safe_head hm (fun _ _ h => .inl h) hb h1 h2 hi hl) fun x =>
          safeP_wr ⟨Int.natCast_nonneg _, ?_⟩ (ho _ _ (.inr ⟨by simp, rfl, ?_⟩))
        · rw [Nat.div_add_mod]
          omega
        · rw [Int.toNat_natCast, Nat.div_add_mod]

theorem jobB_ok (hm : AsmMem k o off m) (hI : o.cIn = some cI) (hb : b < k.ne)
    (hs : k.nO * k.nI + k.nI * k.nO ≤ m.len (.shared b 0)) : (jobB (α := α) k cI b).Ok m.len := by
  refine cellJob_ok (fun c hc => ?_) (fun c hc c' hc' a x h h' => h.2.symm.trans h'.2) (fun c hc own ho => ?_)
  · obtain ⟨hl, hi⟩ := thread_dec hc
    refine ⟨fun s => ⟨upd s (.shared b 0) (k.nI * (c / k.nI) + c % k.nI) _,
      big_bind (big_curlDot (hm.cIn cI hI) hb hl _ _ s) (big_wr _ _ _ _), ?_, ?_⟩, ?_, ?_⟩
    · rintro a x ⟨rfl, rfl⟩
      rw [Nat.div_add_mod, upd_same]
      rfl
    · intro a x h
      rw [Nat.div_add_mod]
      exact upd_other _ _ h
    · rintro a x ⟨rfl, rfl⟩ ⟨-, h⟩
      rw [Nat.mul_comm] at hc
      omega
    · rintro s s' h a x ⟨rfl, rfl⟩
      exact curlVal_congr hl fun n hn => h _ _ (.inr ⟨rfl, Nat.le_add_right _ _⟩)
  · obtain ⟨hl, hi⟩ := thread_dec hc
    refine safeP_bind (safe_curlDot (hm.cIn cI hI) hb hl (fun n hn => ?_) (fun n hn => ⟨rfl, Nat.le_add_right _ _⟩))
      fun x => safeP_wr ⟨Int.natCast_nonneg _, ?_⟩ (ho _ _ ⟨rfl, ?_⟩)
    · have := enc_lt hi hn
      rw [Nat.mul_comm k.nI (c / k.nI)]
      rw [Nat.mul_comm k.nI k.nO] at hs
      omega
    · rw [Nat.div_add_mod]
      omega
    · rw [Int.toNat_natCast, Nat.div_add_mod]

end

/-! ## The sequence -/

/-- Pieces between the barriers. -/
def chain {β : Type} (A B C : β → K α Unit) (pre : K α Unit) : List β → List (K α Unit)
  | [] => [pre]
  | p :: ps => (do pre; A p) :: B p :: chain A B C (C p) ps

omit [CommRing α] in
theorem chain_runs {β : Type} (A B C : β → K α Unit) (pre : K α Unit) (ps : List β) :
    (do pre; forIn' ps (fun p _ => (do A p; syncthreads; B p; syncthreads; C p : K α Unit)) ()) =
      runAll (chain A B C pre ps) := by
  induction ps generalizing pre with
  | nil => rfl
  | cons p ps ih =>
    have h := ih (C p)
    have e : ∀ l : List (K α Unit), l ≠ [] → phases l = (do syncthreads; runAll l) := by
      intro l hl
      cases l with
      | nil => exact absurd rfl hl
      | cons m l => rfl
    show (do pre; ((do A p; syncthreads; B p; syncthreads; C p : K α Unit) >>= fun _ => forIn' ps _ ())) =
      (do (do pre; A p); syncthreads; B p; phases (chain A B C (C p) ps))
    rw [e _ (by cases ps <;> simp [chain]), ← h]
    rfl

noncomputable def chainJ (k : AsmK) (o : AsmO) (cI cO : Buf Int) (off b : Nat) (pre : Option (Nat × Nat)) :
    List (Nat × Nat) → List (Job α)
  | [] => [jobCA k o cO off b pre none]
  | p :: ps => jobCA k o cO off b pre (some p) :: jobB k cI b :: chainJ k o cI cO off b (some p) ps

omit [CommRing α] in
theorem strideList_self {B t : Nat} (ht : t < B) : strideList B B B t = [t] := by
  have hnd := nodup_strideList (n := B) (step := B) (by omega) B t
  have hmem : ∀ x, x ∈ strideList B B B t ↔ x = t := fun x => by
    rw [mem_cells ht]
    constructor
    · rintro ⟨h1, h2⟩
      rwa [Nat.mod_eq_of_lt h1] at h2
    · rintro rfl
      exact ⟨ht, Nat.mod_eq_of_lt ht⟩
  have h1 : t ∈ strideList B B B t := (hmem t).mpr rfl
  generalize strideList B B B t = l at hnd hmem h1
  cases l with
  | nil => simp at h1
  | cons x l =>
    have hx := (hmem x).mp (List.mem_cons_self ..)
    subst hx
    cases l with
    | nil => rfl
    | cons y l =>
      have hy := (hmem y).mp (by simp)
      subst hy
      simp at hnd

omit [CommRing α] in
theorem strideFor_self {B t : Nat} (ht : t < B) (body : Nat → K α Unit) : strideFor B t B body = body t := by
  unfold strideFor
  rw [strideList_self ht]
  rfl

theorem chainJ_seg (k : AsmK) (o : AsmO) (cI cO : Buf Int) (off b : Nat) (pre : Option (Nat × Nat)) (ps : List (Nat × Nat))
    {t : Nat} (ht : t < k.nI * k.nO) :
    (chainJ (α := α) k o cI cO off b pre ps).map (fun j => j.seg (k.nI * k.nO) t) =
      chain (fun p => pieceA k o b p t) (fun _ => pieceB k cI b t) (fun p => pieceC k cO off b p t)
        (match pre with
          | some p => pieceC k cO off b p t
          | none => pure ()) ps := by
  induction ps generalizing pre with
  | nil =>
    show [strideFor (k.nI * k.nO) t (k.nI * k.nO) (pieceCA k o cO off b pre none)] = _
    rw [strideFor_self ht]
    rfl
  | cons p ps ih =>
    show strideFor (k.nI * k.nO) t (k.nI * k.nO) (pieceCA k o cO off b pre (some p)) ::
      strideFor (k.nI * k.nO) t (k.nI * k.nO) (pieceB k cI b) :: (chainJ k o cI cO off b (some p) ps).map _ = _
    rw [strideFor_self ht, strideFor_self ht, ih]
    rfl

/-- The pairs of components. -/
def pairs (n m : Nat) : List (Nat × Nat) := (List.range n).flatMap fun i => (List.range m).map fun j => (i, j)

theorem mem_pairs {n m : Nat} {p : Nat × Nat} : p ∈ pairs n m ↔ p.1 < n ∧ p.2 < m := by
  unfold pairs
  simp only [List.mem_flatMap, List.mem_map, List.mem_range]
  constructor
  · rintro ⟨i, hi, j, hj, rfl⟩
    exact ⟨hi, hj⟩
  · rintro ⟨hi, hj⟩
    exact ⟨p.1, hi, p.2, hj, rfl⟩

theorem nodup_pairs (n m : Nat) : (pairs n m).Nodup := by
  unfold pairs
  rw [List.nodup_flatMap]
  refine ⟨fun i _ => List.Nodup.map (fun a b h => by cases h; rfl) List.nodup_range, ?_⟩
  refine List.Pairwise.imp (fun {a b} hab => ?_) List.nodup_range
  simp only [Function.onFun, List.disjoint_iff_ne, List.mem_map]
  rintro x ⟨j, -, rfl⟩ y ⟨j', -, rfl⟩ h
  cases h
  exact hab rfl

omit [CommRing α] in
theorem forIn_append {β : Type} (l₁ l₂ : List β) (body : β → K α Unit) :
    forIn' (l₁ ++ l₂) (fun x _ => body x) () = (do
      forIn' l₁ (fun x _ => body x) ()
      forIn' l₂ (fun x _ => body x) ()) := by
  induction l₁ with
  | nil => rfl
  | cons x l ih =>
    show (body x >>= fun _ => forIn' (l ++ l₂) _ ()) = _
    rw [ih]
    rfl

omit [CommRing α] in
theorem forIn_pairs (n m : Nat) (body : Nat × Nat → K α Unit) :
    forN n (fun i _ => forN m (fun j _ => body (i, j)) ()) () = forIn' (pairs n m) (fun p _ => body p) () := by
  unfold pairs forN
  induction List.range n with
  | nil => rfl
  | cons i l ih =>
    rw [List.flatMap_cons, forIn_append, ← ih]
    have : ∀ l' : List Nat, forIn' (l'.map fun j => (i, j)) (fun p _ => body p) () =
        forIn' l' (fun j _ => body (i, j)) () := by
      intro l'
      induction l' with
      | nil => rfl
      | cons j l' ih' =>
        show (body (i, j) >>= fun _ => forIn' (l'.map fun j => (i, j)) _ ()) = _
        rw [ih']
        rfl
    rw [this]
    rfl

section
variable {k : AsmK} {o : AsmO} {cI cO : Buf Int} {off b : Nat} {m : Mem α}

theorem curl_kernel (hI : o.cIn = some cI) (hO : o.cOut = some cO) (hbY : k.bY = k.nO) (hb : b < k.ne) {t : Nat}
    (ht : t < k.nI * k.nO) : asmKernel (α := α) k o off k.ne b t =
      runAll ((chainJ k o cI cO off b none (pairs k.ncI k.ncO)).map fun j => j.seg (k.nI * k.nO) t) := by
  obtain ⟨hl, hi⟩ := thread_dec ht
  rw [chainJ_seg k o cI cO off b none _ ht, ← chain_runs]
  unfold asmKernel
  rw [strideFor_self hb, hbY]
  refine (forIn_pairs k.ncI k.ncO (fun p => (do
    strideFor k.nO (t / k.nI) k.nO (asmFirst k o off b b p.1 p.2 (t % k.nI) (t / k.nI))
    asmTail k o off b b p.1 p.2 (t % k.nI) (t / k.nI) : K α Unit))).trans ?_
  refine Eq.trans (forIn_congr (fun p _ _ => ?_) ()) (b := forIn' (pairs k.ncI k.ncO) (fun p _ => (do
    pieceA k o b p t; syncthreads; pieceB k cI b t; syncthreads; pieceC k cO off b p t : K α Unit)) ()) rfl
  have h2 : asmTail (α := α) k o off b b p.1 p.2 (t % k.nI) (t / k.nI) = (do
      syncthreads
      pieceC k cO off b p t) := by
    unfold asmTail
    rw [hI, hO]
    simp only
    rw [hbY, strideFor_self hi]
    unfold asmSecond
    rw [hO]
    rfl
  have h1 : asmFirst (α := α) k o off b b p.1 p.2 (t % k.nI) (t / k.nI) (t / k.nI) = (do
      pieceA k o b p t
      syncthreads
      pieceB k cI b t) := by
    unfold asmFirst
    rw [hI, hO]
    rfl
  rw [strideFor_self hi, h1, h2]
  rfl

/-! ## Its effect -/

/-- The value stored. -/
def curlRes (k : AsmK) (o : AsmO) (cI cO : Buf Int) (s : Vals α) (e ci co i l : Nat) : α :=
  curlVal cO k.nO e i fun n => curlVal cI k.nI e l fun n' => asmRes k o s e ci co n n'

theorem effCA_v {pre nxt : Option (Nat × Nat)} (s : Vals α) (x : Nat) :
    (jobCA k o cO off b pre nxt).eff s .v x = (jobCA k o cO off b pre none).eff s .v x := by
  have h : ∀ nxt, (∃ c < k.nI * k.nO, outsC k off b pre c .v x ∨ outsA k b nxt c .v x) ↔
      ∃ c < k.nI * k.nO, outsC k off b pre c .v x := by
    intro nxt
    constructor
    · rintro ⟨c, hc, h | ⟨-, h, -⟩⟩
      · exact ⟨c, hc, h⟩
      · cases h
    · rintro ⟨c, hc, h⟩
      exact ⟨c, hc, .inl h⟩
  by_cases hh : ∃ c < k.nI * k.nO, outsC k off b pre c .v x
  · rw [jobCA, jobCA, eff_in ((h _).mpr hh), eff_in ((h _).mpr hh), resCA_v, resCA_v]
  · rw [jobCA, jobCA, eff_out fun g => hh ((h _).mp g), eff_out fun g => hh ((h _).mp g)]

theorem effCA_pre {p : Nat × Nat} (hp : p.1 < k.ncI ∧ p.2 < k.ncO) (s : Vals α) {i l : Nat} (hi : i < k.nO) (hl : l < k.nI) :
    (jobCA k o cO off b (some p) none).eff s .v (off + k.valPos b p.1 p.2 i l) =
      curlVal cO k.nO b i fun n => s (.shared b 0) (k.nI * n + l) := by
  obtain ⟨d1, d2⟩ := valPos_dec (k := k) (off := off) (e := b) hp.1 hp.2 hi hl
  have hc : i * k.nI + l < k.nI * k.nO := by
    rw [Nat.mul_comm k.nI]
    exact enc_lt hi hl
  refine (eff_in ⟨i * k.nI + l, hc, .inl ⟨p, rfl, rfl, ?_⟩⟩).trans ?_
  · rw [resCA_v, d1, d2]
  · rw [div_enc hl, mod_enc hl]

theorem effCA_v_other {pre : Option (Nat × Nat)} (s : Vals α) {x : Nat}
    (h : ∀ p, pre = some p → ∀ i < k.nO, ∀ l < k.nI, x ≠ off + k.valPos b p.1 p.2 i l) :
    (jobCA k o cO off b pre none).eff s .v x = s .v x := by
  refine eff_out ?_
  rintro ⟨c, hc, ⟨p, hp, -, hx⟩ | ⟨-, hx, -⟩⟩
  · obtain ⟨hl, hi⟩ := thread_dec hc
    exact h p hp _ hi _ hl hx
  · cases hx

theorem effCA_hi {pre : Option (Nat × Nat)} (p : Nat × Nat) (s : Vals α) {i l : Nat} (hi : i < k.nO) (hl : l < k.nI) :
    (jobCA k o cO off b pre (some p)).eff s (.shared b 0) (k.nO * k.nI + (k.nI * i + l)) =
      asmRes k o s b p.1 p.2 i l := by
  have hc : i * k.nI + l < k.nI * k.nO := by
    rw [Nat.mul_comm k.nI]
    exact enc_lt hi hl
  rw [Nat.mul_comm k.nI i]
  refine (eff_in ⟨i * k.nI + l, hc, .inr ⟨by simp, rfl, rfl⟩⟩).trans ?_
  rw [resCA_hi, Nat.add_sub_cancel_left, div_enc hl, mod_enc hl]

theorem effCA_ro {pre nxt : Option (Nat × Nat)} (s : Vals α) {a : Arr} {x : Nat} (h : roUT a x) :
    (jobCA k o cO off b pre nxt).eff s a x = s a x := by
  refine eff_out ?_
  rintro ⟨c, hc, ⟨p, hp, rfl, hx⟩ | ⟨-, rfl, -⟩⟩ <;> rcases h with h | ⟨j, h⟩ <;> cases h

theorem effB_lo (s : Vals α) {i l : Nat} (hi : i < k.nO) (hl : l < k.nI) :
    (jobB k cI b).eff s (.shared b 0) (k.nI * i + l) =
      curlVal cI k.nI b l fun n => s (.shared b 0) (k.nO * k.nI + (k.nI * i + n)) := by
  have hc : i * k.nI + l < k.nI * k.nO := by
    rw [Nat.mul_comm k.nI]
    exact enc_lt hi hl
  rw [Nat.mul_comm k.nI i]
  refine (eff_in ⟨i * k.nI + l, hc, rfl, rfl⟩).trans ?_
  rw [resB, mod_enc hl, div_enc hl, Nat.mul_comm i]

theorem effB_other (s : Vals α) {a : Arr} {x : Nat} (h : a ≠ .shared b 0) : (jobB k cI b).eff s a x = s a x := by
  exact eff_out fun ⟨c, _, ha, _⟩ => h ha

theorem chain_eff {s₀ : Vals α} {ps : List (Nat × Nat)} : ∀ (pre : Option (Nat × Nat)) (s : Vals α),
    (∀ a x, roUT a x → s a x = s₀ a x) → ps.Nodup → (∀ p ∈ ps, p.1 < k.ncI ∧ p.2 < k.ncO) →
    (∀ p ∈ ps, ∀ i < k.nO, ∀ l < k.nI, effs (chainJ k o cI cO off b pre ps) s .v (off + k.valPos b p.1 p.2 i l) =
      curlRes k o cI cO s₀ b p.1 p.2 i l) ∧
    ∀ x, (∀ p ∈ ps, ∀ i < k.nO, ∀ l < k.nI, x ≠ off + k.valPos b p.1 p.2 i l) →
      effs (chainJ k o cI cO off b pre ps) s .v x = (jobCA k o cO off b pre none).eff s .v x := by
  induction ps with
  | nil => exact fun pre s _ _ _ => ⟨fun p hp => by simp at hp, fun x _ => rfl⟩
  | cons p ps ih =>
    intro pre s hs hnd hps
    obtain ⟨hn, hnd'⟩ := List.nodup_cons.mp hnd
    have hp := hps p (List.mem_cons_self ..)
    have hps' : ∀ q ∈ ps, q.1 < k.ncI ∧ q.2 < k.ncO := fun q hq => hps q (List.mem_cons_of_mem _ hq)
    have hs2 : ∀ a x, roUT a x →
        (jobB k cI b).eff ((jobCA k o cO off b pre (some p)).eff s) a x = s₀ a x := by
      intro a x hr
      rw [effB_other, effCA_ro s hr, hs a x hr]
      rintro rfl
      rcases hr with h | ⟨j, h⟩ <;> cases h
    obtain ⟨g1, g2⟩ := ih (some p) ((jobB k cI b).eff ((jobCA k o cO off b pre (some p)).eff s)) hs2 hnd' hps'
    have he : effs (chainJ k o cI cO off b pre (p :: ps)) s = effs (chainJ k o cI cO off b (some p) ps)
        ((jobB k cI b).eff ((jobCA k o cO off b pre (some p)).eff s)) := rfl
    rw [he]
    refine ⟨fun q hq i hi l hl => ?_, fun x hx => ?_⟩
    · rcases List.mem_cons.mp hq with rfl | hq
      · rw [g2, effCA_pre hp _ hi hl]
        · unfold curlRes
          refine curlVal_congr hi fun n hn' => ?_
          rw [effB_lo _ hn' hl]
          refine curlVal_congr hl fun n' hn'' => ?_
          rw [effCA_hi _ _ hn' hn'']
          exact asmRes_loc hs _ _ _ _ _
        · intro r hr i' hi' l' hl' h
          obtain ⟨-, h1, h2, -⟩ := valPos_inj hp.1 hp.2 hi hl (hps' r hr).1 (hps' r hr).2 hi' hl' (Nat.add_left_cancel h)
          exact hn (Prod.ext h1 h2 ▸ hr)
      · exact g1 q hq i hi l hl
    · rw [g2 x fun q hq => hx q (List.mem_cons_of_mem _ hq), effCA_v_other, effB_other _ (by intro h; cases h), effCA_v]
      intro q hq
      cases hq
      exact hx p (List.mem_cons_self ..)

theorem chainJ_mem {pre : Option (Nat × Nat)} {ps : List (Nat × Nat)} {j : Job α} (h : j ∈ chainJ k o cI cO off b pre ps) :
    j = jobB k cI b ∨ ∃ pre' nxt, (∀ p, pre' = some p → pre = some p ∨ p ∈ ps) ∧ (∀ p, nxt = some p → p ∈ ps) ∧
      j = jobCA k o cO off b pre' nxt := by
  induction ps generalizing pre with
  | nil =>
    simp only [chainJ, List.mem_singleton] at h
    exact .inr ⟨pre, none, fun p hp => .inl hp, (fun p hp => by cases hp), h⟩
  | cons p ps ih =>
    simp only [chainJ, List.mem_cons] at h
    rcases h with h | h | h
    · exact .inr ⟨pre, some p, fun p hp => .inl hp, fun q hq => by cases hq; simp, h⟩
    · exact .inl h
    · rcases ih h with h | ⟨pre', nxt, h1, h2, h3⟩
      · exact .inl h
      · refine .inr ⟨pre', nxt, fun q hq => .inr ?_, fun q hq => List.mem_cons_of_mem _ (h2 q hq), h3⟩
        rcases h1 q hq with h | h
        · cases h
          simp
        · exact List.mem_cons_of_mem _ h

/-- With curl orientations on both sides, one element per block and one thread per entry. -/
theorem curl_runs (hI : o.cIn = some cI) (hO : o.cOut = some cO) (hbY : k.bY = k.nO) (hn : 0 < k.nI) (hn' : 0 < k.nO)
    (hm : AsmMem k o off m) (hs : ∀ b < k.ne, k.nO * k.nI + k.nI * k.nO ≤ m.len (.shared b 0)) :
    Runs k.ne (k.nI * k.bY) (launch (asmKernel k o off k.ne) m) fun s =>
      (∀ e < k.ne, ∀ ci < k.ncI, ∀ co < k.ncO, ∀ i < k.nO, ∀ l < k.nI,
        s .v (off + k.valPos e ci co i l) = curlRes k o cI cO m.val e ci co i l) ∧
      ∀ x, x < off ∨ off + k.ne * k.ncI * k.ncO * k.nO * k.nI ≤ x → s .v x = m.val .v x := by
  rw [hbY]
  refine runs_jobs (Nat.mul_pos hn hn') (fun b => chainJ k o cI cO off b none (pairs k.ncI k.ncO))
    (fun b a x => a = .shared b 0 ∨ (a = .v ∧ ∃ p ∈ pairs k.ncI k.ncO, ∃ i < k.nO, ∃ l < k.nI,
      x = off + k.valPos b p.1 p.2 i l)) (fun b hb => ?_) (fun b hb t ht => curl_kernel hI hO hbY hb ht) (fun b hb j hj => ?_)
    (fun b hb j hj c hc a x ho => ?_) (fun b hb j hj a x hr b' hb' hreg => ?_) (fun b hb b' hb' a x h h' => ?_)
    fun s h1 h2 => ⟨fun e he ci hci co hco i hi l hl => ?_, fun x hx => ?_⟩
  · cases pairs k.ncI k.ncO <;> simp [chainJ]
  · rcases chainJ_mem hj with rfl | ⟨pre, nxt, g1, g2, rfl⟩
    · exact jobB_ok hm hI hb (hs b hb)
    · refine jobCA_ok hm hO hb (hs b hb) (fun p hp => ?_) (fun p hp => mem_pairs.mp (g2 p hp))
      rcases g1 p hp with h | h
      · cases h
      · exact mem_pairs.mp h
  · rcases chainJ_mem hj with rfl | ⟨pre, nxt, g1, g2, rfl⟩
    · exact .inl ho.1
    · rcases ho with ⟨p, hp, rfl, hx⟩ | ⟨-, h, -⟩
      · obtain ⟨hl, hi⟩ := thread_dec (show c < k.nI * k.nO from hc)
        rcases g1 p hp with h | h
        · cases h
        · exact .inr ⟨rfl, p, h, _, hi, _, hl, hx⟩
      · exact .inl h
  · rcases chainJ_mem hj with rfl | ⟨pre, nxt, g1, g2, rfl⟩
    · have hr' : roB k b a x := hr
      rcases hreg with h | ⟨h, -⟩
      · rw [hr'.1] at h
        cases h
        rfl
      · rw [hr'.1] at h
        cases h
    · have hr' : roCA k b a x := hr
      rcases hr' with (rfl | ⟨j, rfl⟩) | ⟨rfl, -⟩
      · rcases hreg with h | ⟨h, -⟩ <;> cases h
      · rcases hreg with h | ⟨h, -⟩ <;> cases h
      · rcases hreg with h | ⟨h, -⟩
        · cases h
          rfl
        · cases h
  · rcases h with rfl | ⟨rfl, p, hp, i, hi, l, hl, e1⟩
    · rcases h' with h | ⟨h, -⟩
      · cases h
        rfl
      · cases h
    · rcases h' with h | ⟨-, p', hp', i', hi', l', hl', e2⟩
      · cases h
      · rw [mem_pairs] at hp hp'
        exact (valPos_inj hp.1 hp.2 hi hl hp'.1 hp'.2 hi' hl' (Nat.add_left_cancel (e1.symm.trans e2))).1.symm
  · have hp : (ci, co) ∈ pairs k.ncI k.ncO := mem_pairs.mpr ⟨hci, hco⟩
    rw [h1 e he .v _ (.inr ⟨rfl, (ci, co), hp, i, hi, l, hl, rfl⟩)]
    exact (chain_eff none m.val (fun _ _ _ => rfl) (nodup_pairs _ _) fun p hp => mem_pairs.mp hp).1 _ hp i hi l hl
  · refine h2 .v x fun b hb h => ?_
    rcases h with h | ⟨-, p, hp, i, hi, l, hl, e⟩
    · cases h
    · rw [mem_pairs] at hp
      have := valPos_lt (k := k) hb hp.1 hp.2 hi hl
      omega

end

end Verif.Gpu
