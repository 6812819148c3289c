import Verif.QFunction.Gallery
import Mathlib.LinearAlgebra.Matrix.NonsingularInverse
import Mathlib.LinearAlgebra.Matrix.Adjugate
import Mathlib.Algebra.Field.Rat
import Mathlib.Tactic.FieldSimp
import Mathlib.Tactic.Ring
import Mathlib.Tactic.FinCases

/-!
# C50, C51: the gallery of QFunctions
-/

namespace Verif.QFunction

/-! ## C50: lookup by name -/

section
variable {ι : Type}

/-- What the search has found after the rows of `t`. -/
def Found (name : List Char) (t : List (Entry ι)) (best : Nat × Nat) : Prop :=
  (∀ e ∈ t, Ceed.matchLen e.name name ≤ best.1) ∧
  (0 < best.1 → ∃ e, t[best.2]? = some e ∧ Ceed.matchLen e.name name = best.1 ∧
    ∀ j e', t[j]? = some e' → j < best.2 → Ceed.matchLen e'.name name < best.1)

theorem scanQF_found (name : List Char) (rest done : List (Entry ι)) (best : Nat × Nat) (h : Found name done best) :
    Found name (done ++ rest) (scanQF name rest done.length best) := by
  induction rest generalizing done best with
  | nil => simpa [scanQF] using h
  | cons e t ih =>
    have := ih (done ++ [e]) (if best.1 < Ceed.matchLen e.name name then (Ceed.matchLen e.name name, done.length) else best) ?_
    · simpa [scanQF, List.append_assoc] using this
    · obtain ⟨h1, h2⟩ := h
      by_cases hb : best.1 < Ceed.matchLen e.name name
      · rw [if_pos hb]
        refine ⟨?_, ?_⟩
        · intro x hx
          rcases List.mem_append.1 hx with hx | hx
          · have := h1 x hx; dsimp only; omega
          · simp only [List.mem_singleton] at hx; subst hx; exact le_refl _
        · intro _
          refine ⟨e, by simp, rfl, ?_⟩
          intro j e' hj hlt
          dsimp only at hlt
          rw [List.getElem?_append_left hlt] at hj
          have := h1 e' (List.mem_of_getElem? hj)
          dsimp only
          omega
      · rw [if_neg hb]
        refine ⟨?_, ?_⟩
        · intro x hx
          rcases List.mem_append.1 hx with hx | hx
          · exact h1 x hx
          · simp only [List.mem_singleton] at hx; subst hx; omega
        · intro hp
          obtain ⟨e0, k1, k2, k3⟩ := h2 hp
          have hlt : best.2 < done.length := by
            by_contra hge
            rw [List.getElem?_eq_none (by omega)] at k1
            cases k1
          refine ⟨e0, by rw [List.getElem?_append_left hlt]; exact k1, k2, ?_⟩
          intro j e' hj hjl
          rw [List.getElem?_append_left (by omega)] at hj
          exact k3 j e' hj hjl

theorem scanQF_all (name : List Char) (t : List (Entry ι)) : Found name t (scanQF name t 0 (0, 4294967295)) := by
  have := scanQF_found name t [] (0, 4294967295) ⟨by simp, by simp⟩
  simpa using this

theorem matchLen_self (p : List Char) : Ceed.matchLen p p = p.length := by
  have h1 := Ceed.matchLen_le_left p p
  have h2 := ((Ceed.matchLen_iff p p p).1 ⟨List.prefix_rfl, List.prefix_rfl⟩).2
  omega

theorem matchLen_le_right (p r : List Char) : Ceed.matchLen p r ≤ r.length := by
  obtain ⟨h1, h2⟩ := Ceed.matchLen_common p r
  rw [← h2]
  simp

theorem matchLen_full (p r : List Char) : Ceed.matchLen p r = r.length ↔ r <+: p := by
  constructor
  · intro h
    exact ((Ceed.matchLen_iff p r r).2 ⟨List.prefix_rfl, by omega⟩).1
  · intro h
    have := ((Ceed.matchLen_iff p r r).1 ⟨h, List.prefix_rfl⟩).2
    have := matchLen_le_right p r
    omega

/-- **C50.** A QFunction created by name is the registered QFunction of exactly that name. -/
theorem C50_exact (t : List (Entry ι)) (name : List Char) (f : ι) (h : byName t (some name) = .ok f) :
    ∃ e ∈ t, e.name = name ∧ e.f = f := by
  simp only [byName] at h
  split at h
  · split at h
    · cases h
    · rename_i e he
      split at h
      · rename_i hn
        cases h
        exact ⟨e, List.mem_of_getElem? he, hn, rfl⟩
      · cases h
  · cases h

/-- **C50.** Creation by a registered nonempty name succeeds, and gives the first row with that name, exactly when no
earlier row has a longer name that starts with it. -/
theorem C50_found (t : List (Entry ι)) (name : List Char) (hn : name ≠ []) (f : ι) :
    byName t (some name) = .ok f ↔
      ∃ (i : Nat) (e : Entry ι), t[i]? = some e ∧ e.name = name ∧ e.f = f ∧ ∀ (j : Nat) (e' : Entry ι), t[j]? = some e' → j < i → ¬ name <+: e'.name := by
  obtain ⟨h1, h2⟩ := scanQF_all name t
  have hlen : 0 < name.length := List.length_pos_of_ne_nil hn
  constructor
  · intro h
    simp only [byName] at h
    split at h
    · rename_i hp
      obtain ⟨e, k1, k2, k3⟩ := h2 hp
      rw [k1] at h
      dsimp only at h
      split at h
      · rename_i he
        cases h
        refine ⟨_, e, k1, he, rfl, ?_⟩
        intro j e' hj hlt hpre
        have := k3 j e' hj hlt
        rw [(matchLen_full e'.name name).2 hpre, ← k2, he, matchLen_self] at this
        omega
      · cases h
    · cases h
  · rintro ⟨i, e, hi, he, rfl, hfirst⟩
    have hm := h1 e (List.mem_of_getElem? hi)
    rw [he, matchLen_self] at hm
    have hp : 0 < (scanQF name t 0 (0, 4294967295)).1 := by omega
    obtain ⟨e0, k1, k2, k3⟩ := h2 hp
    have hle := matchLen_le_right e0.name name
    have hfull : Ceed.matchLen e0.name name = name.length := by omega
    have hij : (scanQF name t 0 (0, 4294967295)).2 = i := by
      rcases Nat.lt_trichotomy (scanQF name t 0 (0, 4294967295)).2 i with h | h | h
      · exact absurd ((matchLen_full _ _).1 hfull) (hfirst _ _ k1 h)
      · exact h
      · have := k3 i e hi h
        rw [he, matchLen_self] at this
        omega
    simp only [byName]
    rw [if_pos hp, hij, hi]
    dsimp only
    rw [if_pos he]

/-- **C50.** A name that is not registered is an error, never undefined behaviour; so is a missing or an empty name. -/
theorem C50_unknown (t : List (Entry ι)) (name : List Char) (h : ∀ e ∈ t, e.name ≠ name) :
    byName t (some name) = .err .unsupported ∧ byName t none = .err .incomplete := by
  refine ⟨?_, rfl⟩
  obtain ⟨_, h2⟩ := scanQF_all name t
  simp only [byName]
  split
  · rename_i hp
    obtain ⟨e, k1, _, _⟩ := h2 hp
    rw [k1]
    dsimp only
    rw [if_neg (h e (List.mem_of_getElem? k1))]
  · rfl

/-- **C50.** Registration keeps the rows and refuses the 1025th. -/
theorem C50_register (t : List (Entry ι)) (name : List Char) (f : ι) (hn : name.length < 1024) :
    (t.length < 1024 → registerQF name f t = .ok (t ++ [⟨name, f⟩]) ()) ∧
    (1024 ≤ t.length → registerQF name f t = .err t .major) := by
  constructor
  · intro h
    have : name.take 1023 = name := List.take_of_length_le (by omega)
    simp [registerQF, h, this]
  · intro h
    simp only [registerQF]
    rw [if_neg (by omega)]

/-- **C50, disagreement.** A registered name cannot be created when a longer name starting with it was registered
first: `A` is registered, but asking for it is an error. -/
theorem C50_prefix_witness (f g : ι) :
    byName [⟨['A', 'B'], f⟩, ⟨['A'], g⟩] (some ['A']) = .err .unsupported := by
  rfl

end

/-- No name of the gallery starts an earlier name. -/
theorem gallery_order : ∀ i < 16, ∀ j < i,
    ((galleryNames.getD i "").toList.isPrefixOf (galleryNames.getD j "").toList) = false := by decide

/-- **C50.** Every name of the gallery gives its QFunction, after the registration of the gallery and of any further
QFunctions. -/
theorem C50_gallery (s : String) (h : s ∈ galleryNames) (more : List (Entry String)) :
    byName (gallery ++ more) (some s.toList) = .ok s := by
  have hne : s.toList ≠ [] := by
    revert h; revert s; decide
  rw [C50_found _ _ hne]
  obtain ⟨i, hi⟩ := List.mem_iff_getElem?.1 h
  have hi16 : i < 16 := by
    by_contra hge
    rw [List.getElem?_eq_none (show galleryNames.length ≤ i from by have : galleryNames.length = 16 := rfl; omega)] at hi
    cases hi
  have hget : ∀ k : Nat, gallery[k]? = (galleryNames[k]?).map (fun s => (⟨s.toList, s⟩ : Entry String)) := by
    intro k; unfold gallery; rw [List.getElem?_map]
  have hl : gallery.length = 16 := rfl
  refine ⟨i, ⟨s.toList, s⟩, ?_, rfl, rfl, ?_⟩
  · rw [List.getElem?_append_left (by omega), hget, hi]
    rfl
  · intro j e' hj hlt hpre
    rw [List.getElem?_append_left (by omega), hget] at hj
    cases hn : galleryNames[j]? with
    | none => rw [hn] at hj; cases hj
    | some s' =>
      rw [hn] at hj
      cases hj
      have := gallery_order i hi16 j hlt
      rw [List.getD_eq_getElem?_getD, List.getD_eq_getElem?_getD, hi, hn] at this
      simp only [Option.getD_some] at this
      rw [List.isPrefixOf_iff_prefix.2 hpre] at this
      cases this

/-! ## C51: the user functions of the gallery -/

section
set_option linter.unusedSectionVars false
variable {α : Type} [Field α]

/-! ### Specification -/

/-- The Jacobian at point `i`: the derivative of coordinate `c` in reference direction `d`, as `CEED_EVAL_GRAD` of the
coordinates lays it out. -/
def jac (n Q : Nat) (J : Buf α) (i : Nat) : Matrix (Fin n) (Fin n) α :=
  Matrix.of fun c d => J.val ((d.val * n + c.val) * Q + i)

/-- The gradient of component `c` of `nc` at point `i`. -/
def gradAt (n nc Q : Nat) (u : Buf α) (c i : Nat) : Fin n → α := fun d => u.val ((d.val * nc + c) * Q + i)

/-- The metric of the Poisson operator at a point: `w det(J) J⁻¹ J⁻ᵀ`. -/
noncomputable def metric {n : Nat} (A : Matrix (Fin n) (Fin n) α) (w : α) : Matrix (Fin n) (Fin n) α :=
  (w * A.det) • (A⁻¹ * A⁻¹.transpose)

/-! ### Writing at a point -/

theorem setsPoint {n Q k i : Nat} (hk : k < n) (hi : i < Q) {x : α} {val : Nat → Nat → α} (hx : x = val k i) :
    Sets (fun v => v.wr (k * Q + i) x) (n * Q) (fun j => j = k * Q + i) (fun j => val (j / Q) (j % Q)) := by
  refine Sets.wr ?_ ?_
  · calc k * Q + i < k * Q + Q := by omega
      _ = (k + 1) * Q := by ring
      _ ≤ n * Q := Nat.mul_le_mul_right _ hk
  · rw [hx]
    have h1 : (k * Q + i) / Q = k := by
      rw [Nat.mul_comm, Nat.mul_add_div (by omega), Nat.div_eq_of_lt hi, Nat.add_zero]
    have h2 : (k * Q + i) % Q = i := by
      rw [Nat.mul_comm, Nat.mul_add_mod, Nat.mod_eq_of_lt hi]
    rw [h1, h2]

theorem points {n Q : Nat} {body : Nat → Buf α → Res (Buf α)} {val : Nat → Nat → α}
    (h : ∀ i < Q, Sets (body i) (n * Q) (fun j => ∃ k < n, j = k * Q + i) (fun j => val (j / Q) (j % Q)))
    {v : Buf α} (hv : v.len = n * Q) :
    ∃ v', loop Q body v = .ok v' ∧ v'.len = n * Q ∧ ∀ k < n, ∀ i < Q, v'.val (k * Q + i) = val k i := by
  obtain ⟨v', h1, h2, h3, _⟩ := Sets.loop h v hv
  refine ⟨v', h1, h2, ?_⟩
  intro k hk i hi
  rw [h3 _ ⟨i, hi, k, hk, rfl⟩]
  have h1 : (k * Q + i) / Q = k := by
    rw [Nat.mul_comm, Nat.mul_add_div (by omega), Nat.div_eq_of_lt hi, Nat.add_zero]
  have h2 : (k * Q + i) % Q = i := by
    rw [Nat.mul_comm, Nat.mul_add_mod, Nat.mod_eq_of_lt hi]
  simp only [h1, h2]

/-- A loop that writes entry `i` at iteration `i`. -/
theorem writes {n : Nat} {body : Nat → Buf α → Res (Buf α)} {g : Nat → α}
    (h : ∀ i < n, ∀ v, body i v = v.wr i (g i)) {v : Buf α} (hv : v.len = n) :
    ∃ v', loop n body v = .ok v' ∧ v'.len = n ∧ ∀ i < n, v'.val i = g i := by
  refine (Sets.loop (S := fun i j => j = i) (g := g) (L := n) ?_).all (fun j hj => ⟨j, hj, rfl⟩) hv
  intro i hi
  have : body i = fun v => v.wr i (g i) := funext (h i hi)
  rw [this]
  exact Sets.wr hi rfl

/-! ### Theorems -/

/-- **C51.** `Identity` copies and `Scale` multiplies entry by entry, for every number of points and field size. -/
theorem C51_identity_scale (size Q : Nat) (input scale output : Buf α) (h1 : input.len = Q * size)
    (h2 : scale.len = Q * size) (h3 : output.len = Q * size) :
    (∃ v, identityK size Q input output = .ok v ∧ v.len = Q * size ∧ ∀ i < Q * size, v.val i = input.val i) ∧
    (∃ v, scaleK size Q input scale output = .ok v ∧ v.len = Q * size ∧
      ∀ i < Q * size, v.val i = input.val i * scale.val i) := by
  constructor
  · refine writes (g := input.val) ?_ h3
    intro i hi v
    rw [Buf.rd_lt (by omega), Res.bind_ok]
  · refine writes (g := fun i => input.val i * scale.val i) ?_ h3
    intro i hi v
    rw [Buf.rd_lt (by omega), Res.bind_ok, Buf.rd_lt (by omega), Res.bind_ok]

/-- **C51.** The mass QFunctions store weight times Jacobian determinant, in one, two and three dimensions. -/
theorem C51_mass_build (Q : Nat) (J w q : Buf α) (hw : w.len = Q) (hq : q.len = Q) :
    (J.len = 1 * 1 * Q → ∃ v, mass1DBuild Q J w q = .ok v ∧ v.len = Q ∧ ∀ i < Q, v.val i = w.val i * (jac 1 Q J i).det) ∧
    (J.len = 2 * 2 * Q → ∃ v, mass2DBuild Q J w q = .ok v ∧ v.len = Q ∧ ∀ i < Q, v.val i = w.val i * (jac 2 Q J i).det) ∧
    (J.len = 3 * 3 * Q → ∃ v, mass3DBuild Q J w q = .ok v ∧ v.len = Q ∧ ∀ i < Q, v.val i = w.val i * (jac 3 Q J i).det) := by
  refine ⟨fun hJ => ?_, fun hJ => ?_, fun hJ => ?_⟩
  · refine writes ?_ hq
    intro i hi v
    rw [Buf.rd_lt (by omega), Res.bind_ok, Buf.rd_lt (by omega), Res.bind_ok, Matrix.det_fin_one]
    simp [jac, mul_comm]
  · refine writes ?_ hq
    intro i hi v
    simp (disch := omega) only [Buf.rd_lt, Res.bind_ok]
    rw [Matrix.det_fin_two]
    congr 1
    simp [jac]
    ring
  · refine writes ?_ hq
    intro i hi v
    simp (disch := omega) only [Buf.rd_lt, Res.bind_ok]
    rw [Matrix.det_fin_three]
    congr 1
    simp [jac]
    ring

/-- **C51.** The mass QFunctions multiply every component by the stored data. -/
theorem C51_mass_apply (Q : Nat) (u q v : Buf α) (hq : q.len = Q) :
    (u.len = Q → v.len = Q → ∃ v', massApply Q u q v = .ok v' ∧ v'.len = Q ∧ ∀ i < Q, v'.val i = q.val i * u.val i) ∧
    (u.len = 3 * Q → v.len = 3 * Q → ∃ v', vector3MassApply Q u q v = .ok v' ∧ v'.len = 3 * Q ∧
      ∀ c < 3, ∀ i < Q, v'.val (c * Q + i) = q.val i * u.val (c * Q + i)) := by
  constructor
  · intro hu hv
    refine writes ?_ hv
    intro i hi x
    simp (disch := omega) only [Buf.rd_lt, Res.bind_ok]
    rw [mul_comm]
  · intro hu hv
    refine points (val := fun c i => q.val i * u.val (c * Q + i)) ?_ hv
    intro i hi
    refine (Sets.loop (S := fun c j => j = c * Q + i) ?_).congr (fun j => Iff.rfl) (fun j _ => rfl)
    intro c hc
    have hlt : c * Q + i < 3 * Q := by
      rcases (by omega : c = 0 ∨ c = 1 ∨ c = 2) with rfl | rfl | rfl <;> omega
    have : (fun v : Buf α => (do v.wr (c * Q + i) ((← u.rd (c * Q + i)) * (← q.rd i)) : Res (Buf α))) =
        fun v => v.wr (c * Q + i) (u.val (c * Q + i) * q.val i) := by
      funext v
      simp (disch := omega) only [Buf.rd_lt, Res.bind_ok]
    rw [this]
    exact setsPoint (val := fun c i => q.val i * u.val (c * Q + i)) hc hi (mul_comm _ _)

/-- The symmetric matrix stored at point `i`, in one, two and three dimensions (Voigt convention). -/
def stored1 (q : Buf α) (i : Nat) : Matrix (Fin 1) (Fin 1) α := Matrix.of fun _ _ => q.val i

/-- Two dimensions: `0 2 / 2 1`. -/
def stored2 (Q : Nat) (q : Buf α) (i : Nat) : Matrix (Fin 2) (Fin 2) α :=
  !![q.val i, q.val (2 * Q + i); q.val (2 * Q + i), q.val (Q + i)]

/-- Three dimensions: `0 5 4 / 5 1 3 / 4 3 2`. -/
def stored3 (Q : Nat) (q : Buf α) (i : Nat) : Matrix (Fin 3) (Fin 3) α :=
  !![q.val i, q.val (5 * Q + i), q.val (4 * Q + i);
     q.val (5 * Q + i), q.val (Q + i), q.val (3 * Q + i);
     q.val (4 * Q + i), q.val (3 * Q + i), q.val (2 * Q + i)]

theorem metric_eq {n : Nat} (A : Matrix (Fin n) (Fin n) α) (w : α) (h : A.det ≠ 0) :
    metric A w = (w / A.det) • (A.adjugate * A.adjugate.transpose) := by
  unfold metric
  rw [Matrix.inv_def, Matrix.transpose_smul, Matrix.smul_mul, Matrix.mul_smul, smul_smul, smul_smul,
    Ring.inverse_eq_inv']
  congr 1
  field_simp

theorem metric_adj {n : Nat} (A : Matrix (Fin n) (Fin n) α) (w : α) (h : A.det ≠ 0) (S : Matrix (Fin n) (Fin n) α)
    (e : ∀ a b, S a b = w / A.det * ∑ k, A.adjugate a k * A.adjugate b k) : S = metric A w := by
  rw [metric_eq A w h]
  ext a b
  rw [e a b]
  simp [Matrix.mul_apply]

theorem build1 (Q : Nat) (J w q : Buf α) (hJ : J.len = 1 * 1 * Q) (hw : w.len = Q) (hq : q.len = Q)
    (hd : ∀ i < Q, (jac 1 Q J i).det ≠ 0) :
    ∃ v, poisson1DBuild Q J w q = .ok v ∧ v.len = Q ∧ ∀ i < Q, stored1 v i = metric (jac 1 Q J i) (w.val i) := by
  obtain ⟨v, h1, h2, h3⟩ := writes (n := Q) (v := q) (body := fun i v => (do v.wr i ((← w.rd i) / (← J.rd i))))
    (g := fun i => w.val i / J.val i) (by
      intro i hi v
      simp (disch := omega) only [Buf.rd_lt, Res.bind_ok]) hq
  refine ⟨v, h1, h2, ?_⟩
  intro i hi
  refine metric_adj _ _ (hd i hi) _ ?_
  intro a b
  have h0 : a = 0 := Subsingleton.elim _ _
  have h1 : b = 0 := Subsingleton.elim _ _
  subst h0 h1
  simp [stored1, h3 i hi, jac, Matrix.adjugate_subsingleton]

theorem build2 (Q : Nat) (J w q : Buf α) (hJ : J.len = 2 * 2 * Q) (hw : w.len = Q) (hq : q.len = 3 * Q)
    (hd : ∀ i < Q, (jac 2 Q J i).det ≠ 0) :
    ∃ v, poisson2DBuild Q J w q = .ok v ∧ v.len = 3 * Q ∧ ∀ i < Q, stored2 Q v i = metric (jac 2 Q J i) (w.val i) := by
  let D : Nat → α := fun i => w.val i / (jac 2 Q J i).det
  let X : Nat → Fin 2 → Fin 2 → α := fun i a b => ∑ k, (jac 2 Q J i).adjugate a k * (jac 2 Q J i).adjugate b k
  let val : Nat → Nat → α := fun k i =>
    if k = 0 then D i * X i 0 0 else if k = 1 then D i * X i 1 1 else D i * X i 0 1
  have key : ∃ v, poisson2DBuild Q J w q = .ok v ∧ v.len = 3 * Q ∧ ∀ k < 3, ∀ i < Q, v.val (k * Q + i) = val k i := by
    refine points (val := val) ?_ hq
    intro i hi
    have hs := (setsPoint (n := 3) (k := 0) (by decide) hi (val := val) rfl).seq
      ((setsPoint (n := 3) (k := 1) (by decide) hi (val := val) rfl).seq
      (setsPoint (n := 3) (k := 2) (by decide) hi (val := val) rfl))
    refine Eq.subst (motive := fun f => Sets f _ _ _) ?_ (hs.congr ?_ (fun _ _ => rfl))
    · funext v
      simp (disch := omega) only [Buf.rd_lt, Res.bind_ok]
      have e0 : val 0 i = w.val i / (J.val ((0 * 2 + 0) * Q + i) * J.val ((1 * 2 + 1) * Q + i) -
          J.val ((0 * 2 + 1) * Q + i) * J.val ((1 * 2 + 0) * Q + i)) *
          (J.val ((1 * 2 + 0) * Q + i) * J.val ((1 * 2 + 0) * Q + i) + J.val ((1 * 2 + 1) * Q + i) * J.val ((1 * 2 + 1) * Q + i)) := by
        simp [val, D, X, Matrix.adjugate_fin_two, Matrix.det_fin_two, jac, Fin.sum_univ_two]
        ring
      have e1 : val 1 i = w.val i / (J.val ((0 * 2 + 0) * Q + i) * J.val ((1 * 2 + 1) * Q + i) -
          J.val ((0 * 2 + 1) * Q + i) * J.val ((1 * 2 + 0) * Q + i)) *
          (J.val ((0 * 2 + 0) * Q + i) * J.val ((0 * 2 + 0) * Q + i) + J.val ((0 * 2 + 1) * Q + i) * J.val ((0 * 2 + 1) * Q + i)) := by
        simp [val, D, X, Matrix.adjugate_fin_two, Matrix.det_fin_two, jac, Fin.sum_univ_two]
        ring
      have e2 : val 2 i = -(w.val i / (J.val ((0 * 2 + 0) * Q + i) * J.val ((1 * 2 + 1) * Q + i) -
          J.val ((0 * 2 + 1) * Q + i) * J.val ((1 * 2 + 0) * Q + i))) *
          (J.val ((0 * 2 + 0) * Q + i) * J.val ((1 * 2 + 0) * Q + i) + J.val ((0 * 2 + 1) * Q + i) * J.val ((1 * 2 + 1) * Q + i)) := by
        simp [val, D, X, Matrix.adjugate_fin_two, Matrix.det_fin_two, jac, Fin.sum_univ_two]
        ring
      rw [e0, e1, e2]
    · intro j
      constructor
      · rintro (h | h | h)
        exacts [⟨0, by decide, h⟩, ⟨1, by decide, h⟩, ⟨2, by decide, h⟩]
      · rintro ⟨k, hk, h⟩
        rcases (by omega : k = 0 ∨ k = 1 ∨ k = 2) with rfl | rfl | rfl
        exacts [Or.inl h, Or.inr (Or.inl h), Or.inr (Or.inr h)]
  obtain ⟨v, h1, h2, h3⟩ := key
  refine ⟨v, h1, h2, ?_⟩
  intro i hi
  refine metric_adj _ _ (hd i hi) _ ?_
  have g0 := h3 0 (by decide) i hi
  have g1 := h3 1 (by decide) i hi
  have g2 := h3 2 (by decide) i hi
  rw [Nat.zero_mul, Nat.zero_add] at g0
  rw [Nat.one_mul] at g1
  have hsym : X i 1 0 = X i 0 1 := by
    exact Finset.sum_congr rfl (fun k _ => mul_comm _ _)
  intro a b
  fin_cases a <;> fin_cases b
  · show v.val i = D i * X i 0 0
    exact g0
  · show v.val (2 * Q + i) = D i * X i 0 1
    exact g2
  · show v.val (2 * Q + i) = D i * X i 1 0
    rw [hsym]
    exact g2
  · show v.val (Q + i) = D i * X i 1 1
    exact g1

theorem cofactor_eq (Q : Nat) (J : Buf α) (hJ : J.len = 3 * 3 * Q) (i : Nat) (hi : i < Q) :
    ∀ k j : Fin 3, cofactor Q J i k.val j.val = .ok ((jac 3 Q J i).adjugate k j) := by
  intro k j
  fin_cases k <;> fin_cases j <;>
  · unfold cofactor
    simp (disch := omega) only [Buf.rd_lt, Res.bind_ok, Nat.reduceAdd, Nat.reduceMod, Nat.reduceMul]
    simp [Matrix.adjugate_fin_three, jac, Res.pure_eq]
    try ring

theorem build3 (Q : Nat) (J w q : Buf α) (hJ : J.len = 3 * 3 * Q) (hw : w.len = Q) (hq : q.len = 6 * Q)
    (hd : ∀ i < Q, (jac 3 Q J i).det ≠ 0) :
    ∃ v, poisson3DBuild Q J w q = .ok v ∧ v.len = 6 * Q ∧ ∀ i < Q, stored3 Q v i = metric (jac 3 Q J i) (w.val i) := by
  let D : Nat → α := fun i => w.val i / (jac 3 Q J i).det
  let X : Nat → Fin 3 → Fin 3 → α := fun i a b => ∑ k, (jac 3 Q J i).adjugate a k * (jac 3 Q J i).adjugate b k
  let val : Nat → Nat → α := fun k i =>
    if k = 0 then D i * X i 0 0 else if k = 1 then D i * X i 1 1 else if k = 2 then D i * X i 2 2
    else if k = 3 then D i * X i 1 2 else if k = 4 then D i * X i 0 2 else D i * X i 0 1
  have key : ∃ v, poisson3DBuild Q J w q = .ok v ∧ v.len = 6 * Q ∧ ∀ k < 6, ∀ i < Q, v.val (k * Q + i) = val k i := by
    refine points (val := val) ?_ hq
    intro i hi
    have hs := (setsPoint (n := 6) (k := 0) (by decide) hi (val := val) rfl).seq
      ((setsPoint (n := 6) (k := 1) (by decide) hi (val := val) rfl).seq
      ((setsPoint (n := 6) (k := 2) (by decide) hi (val := val) rfl).seq
      ((setsPoint (n := 6) (k := 3) (by decide) hi (val := val) rfl).seq
      ((setsPoint (n := 6) (k := 4) (by decide) hi (val := val) rfl).seq
      (setsPoint (n := 6) (k := 5) (by decide) hi (val := val) rfl)))))
    refine Eq.subst (motive := fun f => Sets f _ _ _) ?_ (hs.congr ?_ (fun _ _ => rfl))
    · funext v
      have hdet : J.val ((0 * 3 + 0) * Q + i) * (jac 3 Q J i).adjugate 0 0 +
          J.val ((0 * 3 + 1) * Q + i) * (jac 3 Q J i).adjugate 0 1 +
          J.val ((0 * 3 + 2) * Q + i) * (jac 3 Q J i).adjugate 0 2 = (jac 3 Q J i).det := by
        rw [Matrix.det_fin_three]
        simp [Matrix.adjugate_fin_three, jac]
        ring
      have hx : ∀ a b, (jac 3 Q J i).adjugate a 0 * (jac 3 Q J i).adjugate b 0 +
          (jac 3 Q J i).adjugate a 1 * (jac 3 Q J i).adjugate b 1 +
          (jac 3 Q J i).adjugate a 2 * (jac 3 Q J i).adjugate b 2 = X i a b := by
        intro a b
        simp only [X, Fin.sum_univ_three]
      have c00 : cofactor Q J i 0 0 = _ := cofactor_eq Q J hJ i hi 0 0
      have c10 : cofactor Q J i 1 0 = _ := cofactor_eq Q J hJ i hi 1 0
      have c20 : cofactor Q J i 2 0 = _ := cofactor_eq Q J hJ i hi 2 0
      have c01 : cofactor Q J i 0 1 = _ := cofactor_eq Q J hJ i hi 0 1
      have c11 : cofactor Q J i 1 1 = _ := cofactor_eq Q J hJ i hi 1 1
      have c21 : cofactor Q J i 2 1 = _ := cofactor_eq Q J hJ i hi 2 1
      have c02 : cofactor Q J i 0 2 = _ := cofactor_eq Q J hJ i hi 0 2
      have c12 : cofactor Q J i 1 2 = _ := cofactor_eq Q J hJ i hi 1 2
      have c22 : cofactor Q J i 2 2 = _ := cofactor_eq Q J hJ i hi 2 2
      simp (disch := omega) only [c00, c10, c20, c01, c11, c21, c02, c12, c22, Buf.rd_lt, Res.bind_ok]
      simp only [hdet, hx]
      rfl
    · intro j
      constructor
      · rintro (h | h | h | h | h | h)
        exacts [⟨0, by decide, h⟩, ⟨1, by decide, h⟩, ⟨2, by decide, h⟩, ⟨3, by decide, h⟩, ⟨4, by decide, h⟩, ⟨5, by decide, h⟩]
      · rintro ⟨k, hk, h⟩
        rcases (by omega : k = 0 ∨ k = 1 ∨ k = 2 ∨ k = 3 ∨ k = 4 ∨ k = 5) with rfl | rfl | rfl | rfl | rfl | rfl <;> tauto
  obtain ⟨v, h1, h2, h3⟩ := key
  refine ⟨v, h1, h2, ?_⟩
  intro i hi
  refine metric_adj _ _ (hd i hi) _ ?_
  have g0 := h3 0 (by decide) i hi
  have g1 := h3 1 (by decide) i hi
  have g2 := h3 2 (by decide) i hi
  have g3 := h3 3 (by decide) i hi
  have g4 := h3 4 (by decide) i hi
  have g5 := h3 5 (by decide) i hi
  rw [Nat.zero_mul, Nat.zero_add] at g0
  rw [Nat.one_mul] at g1
  have hsym : ∀ a b, X i a b = X i b a := fun a b => Finset.sum_congr rfl (fun k _ => mul_comm _ _)
  intro a b
  fin_cases a <;> fin_cases b
  · exact g0
  · exact g5
  · exact g4
  · exact Eq.trans g5 (congrArg (fun x => D i * x) (hsym 0 1))
  · exact g1
  · exact g3
  · exact Eq.trans g4 (congrArg (fun x => D i * x) (hsym 0 2))
  · exact Eq.trans g3 (congrArg (fun x => D i * x) (hsym 1 2))
  · exact g2

/-- **C51.** The Poisson build QFunctions store `w det(J) J⁻¹ J⁻ᵀ` at every point, when the Jacobians are invertible. -/
theorem C51_poisson_build (Q : Nat) (J w q : Buf α) (hw : w.len = Q) :
    (J.len = 1 * 1 * Q → q.len = Q → (∀ i < Q, (jac 1 Q J i).det ≠ 0) → ∃ v, poisson1DBuild Q J w q = .ok v ∧
      v.len = Q ∧ ∀ i < Q, stored1 v i = metric (jac 1 Q J i) (w.val i)) ∧
    (J.len = 2 * 2 * Q → q.len = 3 * Q → (∀ i < Q, (jac 2 Q J i).det ≠ 0) → ∃ v, poisson2DBuild Q J w q = .ok v ∧
      v.len = 3 * Q ∧ ∀ i < Q, stored2 Q v i = metric (jac 2 Q J i) (w.val i)) ∧
    (J.len = 3 * 3 * Q → q.len = 6 * Q → (∀ i < Q, (jac 3 Q J i).det ≠ 0) → ∃ v, poisson3DBuild Q J w q = .ok v ∧
      v.len = 6 * Q ∧ ∀ i < Q, stored3 Q v i = metric (jac 3 Q J i) (w.val i)) :=
  ⟨fun hJ hq hd => build1 Q J w q hJ hw hq hd, fun hJ hq hd => build2 Q J w q hJ hw hq hd,
   fun hJ hq hd => build3 Q J w q hJ hw hq hd⟩

theorem idx_lt {j n nc c Q i : Nat} (hj : j < n) (hc : c < nc) (hi : i < Q) : (j * nc + c) * Q + i < n * nc * Q := by
  calc (j * nc + c) * Q + i < (j * nc + c) * Q + Q := by omega
    _ = (j * nc + c + 1) * Q := by ring
    _ ≤ (n * nc) * Q := Nat.mul_le_mul_right _ (by
        calc j * nc + c + 1 ≤ j * nc + nc := by omega
          _ = (j + 1) * nc := by ring
          _ ≤ n * nc := Nat.mul_le_mul_right _ hj)

theorem row_lt {k n Q i : Nat} (hk : k < n) (hi : i < Q) : k * Q + i < n * Q := by
  have := idx_lt (nc := 1) (c := 0) hk (by decide) hi
  simpa using this

/-- Three nested loops writing entry `[j][c][i]`. -/
theorem writes3 {n nc Q : Nat} {body : Nat → Nat → Nat → Buf α → Res (Buf α)} {val : Nat → Nat → Nat → α}
    (h : ∀ i < Q, ∀ j < n, ∀ c < nc, ∀ v, body i j c v = v.wr ((j * nc + c) * Q + i) (val j c i))
    {v : Buf α} (hv : v.len = n * nc * Q) :
    ∃ v', loop Q (fun i v => loop n (fun j v => loop nc (fun c v => body i j c v) v) v) v = .ok v' ∧
      v'.len = n * nc * Q ∧ ∀ j < n, ∀ c < nc, ∀ i < Q, v'.val ((j * nc + c) * Q + i) = val j c i := by
  have key : ∃ v', loop Q (fun i v => loop n (fun j v => loop nc (fun c v => body i j c v) v) v) v = .ok v' ∧
      v'.len = n * nc * Q ∧ ∀ k < n * nc, ∀ i < Q, v'.val (k * Q + i) = (fun k i => val (k / nc) (k % nc) i) k i := by
    refine points ?_ hv
    intro i hi
    refine (Sets.loop (S := fun j x => ∃ c < nc, x = (j * nc + c) * Q + i) ?_).congr ?_ (fun _ _ => rfl)
    · intro j hj
      refine Sets.loop (S := fun c x => x = (j * nc + c) * Q + i) ?_
      intro c hc
      have : (fun v => body i j c v) = fun v => v.wr ((j * nc + c) * Q + i) (val j c i) := funext (h i hi j hj c hc)
      rw [this]
      refine setsPoint (val := fun k i => val (k / nc) (k % nc) i) ?_ hi ?_
      · have := idx_lt (Q := 1) (i := 0) hj hc (by decide)
        simpa using this
      · have h1 : (j * nc + c) / nc = j := by
          rw [Nat.mul_comm, Nat.mul_add_div (by omega), Nat.div_eq_of_lt hc, Nat.add_zero]
        have h2 : (j * nc + c) % nc = c := by
          rw [Nat.mul_comm, Nat.mul_add_mod, Nat.mod_eq_of_lt hc]
        simp only [h1, h2]
    · intro x
      constructor
      · rintro ⟨j, hj, c, hc, rfl⟩
        refine ⟨j * nc + c, ?_, rfl⟩
        have := idx_lt (Q := 1) (i := 0) hj hc (by decide)
        simpa using this
      · rintro ⟨k, hk, rfl⟩
        have hnc : 0 < nc := by
          rcases Nat.eq_zero_or_pos nc with h0 | h0
          · subst h0; simp at hk
          · exact h0
        refine ⟨k / nc, (Nat.div_lt_iff_lt_mul hnc).2 hk, k % nc, Nat.mod_lt _ hnc, ?_⟩
        rw [Nat.div_add_mod' k nc]
  obtain ⟨v', h1, h2, h3⟩ := key
  refine ⟨v', h1, h2, ?_⟩
  intro j hj c hc i hi
  have hk : j * nc + c < n * nc := by
    have := idx_lt (Q := 1) (i := 0) hj hc (by decide)
    simpa using this
  rw [h3 _ hk i hi]
  have h1 : (j * nc + c) / nc = j := by
    rw [Nat.mul_comm, Nat.mul_add_div (by omega), Nat.div_eq_of_lt hc, Nat.add_zero]
  have h2 : (j * nc + c) % nc = c := by
    rw [Nat.mul_comm, Nat.mul_add_mod, Nat.mod_eq_of_lt hc]
  simp only [h1, h2]

/-- **C51.** The Poisson apply QFunctions multiply the gradient of every component by the stored matrix. -/
theorem C51_poisson_apply (nc Q : Nat) (ug q vg : Buf α) :
    (ug.len = 1 * nc * Q → vg.len = 1 * nc * Q → q.len = Q → ∃ v, poisson1DApply nc Q ug q vg = .ok v ∧
      v.len = 1 * nc * Q ∧ ∀ c < nc, ∀ i < Q, gradAt 1 nc Q v c i = (stored1 q i).mulVec (gradAt 1 nc Q ug c i)) ∧
    (ug.len = 2 * nc * Q → vg.len = 2 * nc * Q → q.len = 3 * Q → ∃ v, poisson2DApply nc Q ug q vg = .ok v ∧
      v.len = 2 * nc * Q ∧ ∀ c < nc, ∀ i < Q, gradAt 2 nc Q v c i = (stored2 Q q i).mulVec (gradAt 2 nc Q ug c i)) ∧
    (ug.len = 3 * nc * Q → vg.len = 3 * nc * Q → q.len = 6 * Q → ∃ v, poisson3DApply nc Q ug q vg = .ok v ∧
      v.len = 3 * nc * Q ∧ ∀ c < nc, ∀ i < Q, gradAt 3 nc Q v c i = (stored3 Q q i).mulVec (gradAt 3 nc Q ug c i)) := by
  refine ⟨fun hu hv hq => ?_, fun hu hv hq => ?_, fun hu hv hq => ?_⟩
  · have key : ∃ v, poisson1DApply nc Q ug q vg = .ok v ∧ v.len = nc * Q ∧
        ∀ k < nc, ∀ i < Q, v.val (k * Q + i) = (fun k i => ug.val (k * Q + i) * q.val i) k i := by
      refine points ?_ (by rw [hv, Nat.one_mul])
      intro i hi
      refine (Sets.loop (S := fun c j => j = c * Q + i) ?_).congr (fun j => Iff.rfl) (fun j _ => rfl)
      intro c hc
      have hlt := row_lt hc hi
      have : (fun v : Buf α => (do v.wr (c * Q + i) ((← ug.rd (c * Q + i)) * (← q.rd i)) : Res (Buf α))) =
          fun v => v.wr (c * Q + i) (ug.val (c * Q + i) * q.val i) := by
        funext v
        rw [Buf.rd_lt (by rw [hu, Nat.one_mul]; exact hlt), Res.bind_ok, Buf.rd_lt (by omega), Res.bind_ok]
      rw [this]
      exact setsPoint (val := fun k i => ug.val (k * Q + i) * q.val i) hc hi rfl
    obtain ⟨v, h1, h2, h3⟩ := key
    refine ⟨v, h1, by rw [h2, Nat.one_mul], ?_⟩
    intro c hc i hi
    funext d
    have hd : d = 0 := Subsingleton.elim _ _
    subst hd
    have := h3 c hc i hi
    simp only at this
    simp [gradAt, stored1, Matrix.mulVec, dotProduct, this]
    ring
  · obtain ⟨v, h1, h2, h3⟩ := writes3 (n := 2) (nc := nc) (Q := Q) (v := vg)
      (body := fun i j c v => (do
        v.wr ((j * nc + c) * Q + i)
          ((← ug.rd ((0 * nc + c) * Q + i)) * (← q.rd (voigt2 0 j * Q + i)) +
         (← ug.rd ((1 * nc + c) * Q + i)) * (← q.rd (voigt2 1 j * Q + i)))))
      (val := fun j c i => ug.val ((0 * nc + c) * Q + i) * q.val (voigt2 0 j * Q + i) +
         ug.val ((1 * nc + c) * Q + i) * q.val (voigt2 1 j * Q + i)) (by
        intro i hi j hj c hc v
        have hv2 : ∀ a b, voigt2 a b < 3 := by
          intro a b; unfold voigt2; split <;> split <;> decide
        rw [Buf.rd_lt (by rw [hu]; exact idx_lt (by decide) hc hi), Res.bind_ok,
          Buf.rd_lt (by rw [hq]; exact row_lt (hv2 _ _) hi), Res.bind_ok,
          Buf.rd_lt (by rw [hu]; exact idx_lt (by decide) hc hi), Res.bind_ok,
          Buf.rd_lt (by rw [hq]; exact row_lt (hv2 _ _) hi), Res.bind_ok]) hv
    refine ⟨v, h1, h2, ?_⟩
    intro c hc i hi
    have g0 := h3 0 (by decide) c hc i hi
    have g1 := h3 1 (by decide) c hc i hi
    funext d
    fin_cases d
    · simp [gradAt, stored2, Matrix.mulVec, dotProduct, Fin.sum_univ_two, voigt2] at g0 ⊢
      rw [g0]; ring
    · simp [gradAt, stored2, Matrix.mulVec, dotProduct, Fin.sum_univ_two, voigt2] at g1 ⊢
      rw [g1]; ring
  · obtain ⟨v, h1, h2, h3⟩ := writes3 (n := 3) (nc := nc) (Q := Q) (v := vg)
      (body := fun i j c v => (do
        v.wr ((j * nc + c) * Q + i)
          ((← ug.rd ((0 * nc + c) * Q + i)) * (← q.rd (voigt3 0 j * Q + i)) +
         (← ug.rd ((1 * nc + c) * Q + i)) * (← q.rd (voigt3 1 j * Q + i)) +
         (← ug.rd ((2 * nc + c) * Q + i)) * (← q.rd (voigt3 2 j * Q + i)))))
      (val := fun j c i => ug.val ((0 * nc + c) * Q + i) * q.val (voigt3 0 j * Q + i) +
         ug.val ((1 * nc + c) * Q + i) * q.val (voigt3 1 j * Q + i) +
         ug.val ((2 * nc + c) * Q + i) * q.val (voigt3 2 j * Q + i)) (by
        intro i hi j hj c hc v
        have hv3 : ∀ a b, voigt3 a b < 6 := by
          intro a b; unfold voigt3; split_ifs <;> decide
        rw [Buf.rd_lt (by rw [hu]; exact idx_lt (by decide) hc hi), Res.bind_ok,
          Buf.rd_lt (by rw [hq]; exact row_lt (hv3 _ _) hi), Res.bind_ok,
          Buf.rd_lt (by rw [hu]; exact idx_lt (by decide) hc hi), Res.bind_ok,
          Buf.rd_lt (by rw [hq]; exact row_lt (hv3 _ _) hi), Res.bind_ok,
          Buf.rd_lt (by rw [hu]; exact idx_lt (by decide) hc hi), Res.bind_ok,
          Buf.rd_lt (by rw [hq]; exact row_lt (hv3 _ _) hi), Res.bind_ok]) hv
    refine ⟨v, h1, h2, ?_⟩
    intro c hc i hi
    have g0 := h3 0 (by decide) c hc i hi
    have g1 := h3 1 (by decide) c hc i hi
    have g2 := h3 2 (by decide) c hc i hi
    funext d
    fin_cases d
    · simp [gradAt, stored3, Matrix.mulVec, dotProduct, Fin.sum_univ_three, voigt3] at g0 ⊢
      rw [g0]; ring
    · simp [gradAt, stored3, Matrix.mulVec, dotProduct, Fin.sum_univ_three, voigt3] at g1 ⊢
      rw [g1]; ring
    · simp [gradAt, stored3, Matrix.mulVec, dotProduct, Fin.sum_univ_three, voigt3] at g2 ⊢
      rw [g2]; ring

/-- **C51.** Building and then applying gives, at every point and for every component, the gradient of the Poisson form
in physical space: paired with any test gradient it is `w det(J)` times the product of the physical gradients
`J⁻ᵀ v` and `J⁻ᵀ u`. Three dimensions; the other two are the same. -/
theorem C51_poisson3 (nc Q : Nat) (J w q ug vg : Buf α) (hw : w.len = Q) (hJ : J.len = 3 * 3 * Q) (hq : q.len = 6 * Q)
    (hu : ug.len = 3 * nc * Q) (hv : vg.len = 3 * nc * Q) (hd : ∀ i < Q, (jac 3 Q J i).det ≠ 0) :
    ∃ v, (poisson3DBuild Q J w q >>= fun qd => poisson3DApply nc Q ug qd vg) = .ok v ∧
      ∀ c < nc, ∀ i < Q, ∀ t : Fin 3 → α, dotProduct t (gradAt 3 nc Q v c i) =
        w.val i * (jac 3 Q J i).det * dotProduct ((jac 3 Q J i)⁻¹.transpose.mulVec t)
          ((jac 3 Q J i)⁻¹.transpose.mulVec (gradAt 3 nc Q ug c i)) := by
  obtain ⟨qd, h1, h2, h3⟩ := (C51_poisson_build Q J w q hw).2.2 hJ hq hd
  obtain ⟨v, g1, g2, g3⟩ := (C51_poisson_apply nc Q ug qd vg).2.2 hu hv h2
  refine ⟨v, by rw [h1, Res.bind_ok, g1], ?_⟩
  intro c hc i hi t
  rw [g3 c hc i hi, h3 i hi, metric, Matrix.smul_mulVec, dotProduct_smul, smul_eq_mul, ← Matrix.mulVec_mulVec,
    Matrix.dotProduct_mulVec, ← Matrix.mulVec_transpose]

theorem C51_poisson2 (nc Q : Nat) (J w q ug vg : Buf α) (hw : w.len = Q) (hJ : J.len = 2 * 2 * Q) (hq : q.len = 3 * Q)
    (hu : ug.len = 2 * nc * Q) (hv : vg.len = 2 * nc * Q) (hd : ∀ i < Q, (jac 2 Q J i).det ≠ 0) :
    ∃ v, (poisson2DBuild Q J w q >>= fun qd => poisson2DApply nc Q ug qd vg) = .ok v ∧
      ∀ c < nc, ∀ i < Q, ∀ t : Fin 2 → α, dotProduct t (gradAt 2 nc Q v c i) =
        w.val i * (jac 2 Q J i).det * dotProduct ((jac 2 Q J i)⁻¹.transpose.mulVec t)
          ((jac 2 Q J i)⁻¹.transpose.mulVec (gradAt 2 nc Q ug c i)) := by
  obtain ⟨qd, h1, h2, h3⟩ := (C51_poisson_build Q J w q hw).2.1 hJ hq hd
  obtain ⟨v, g1, g2, g3⟩ := (C51_poisson_apply nc Q ug qd vg).2.1 hu hv h2
  refine ⟨v, by rw [h1, Res.bind_ok, g1], ?_⟩
  intro c hc i hi t
  rw [g3 c hc i hi, h3 i hi, metric, Matrix.smul_mulVec, dotProduct_smul, smul_eq_mul, ← Matrix.mulVec_mulVec,
    Matrix.dotProduct_mulVec, ← Matrix.mulVec_transpose]

end

/-! ### Concrete cases -/

/-- Two points with Jacobians `2 1 / 0 3` and `1 0 / 0 1`: the hypotheses of `C51_poisson_build` are met. -/
def exJ : Buf ℚ := Buf.ofList [2, 1, 0, 0, 1, 0, 3, 1]

example : exJ.len = 2 * 2 * 2 ∧ ∀ i < 2, (jac 2 2 exJ i).det ≠ 0 := by
  refine ⟨rfl, ?_⟩
  intro i hi
  rcases (by omega : i = 0 ∨ i = 1) with rfl | rfl <;>
  · rw [Matrix.det_fin_two]
    simp [jac, exJ, Buf.ofList]

end Verif.QFunction
