import Verif.Restriction.Model
import Mathlib.Tactic.Ring
import Mathlib.Tactic.Linarith

/-!
# Loops of the restriction kernels as gathers and sums (helper lemmas)
-/

namespace Verif

section Index

theorem div_enc {a I i : Nat} (h : i < I) : (a * I + i) / I = a := by
  rw [Nat.add_comm, Nat.add_mul_div_right _ _ (by omega), Nat.div_eq_of_lt h, Nat.zero_add]

theorem mod_enc {a I i : Nat} (h : i < I) : (a * I + i) % I = i := by
  rw [Nat.add_comm, Nat.add_mul_mod_self_right, Nat.mod_eq_of_lt h]

theorem enc_lt {a A I i : Nat} (ha : a < A) (h : i < I) : a * I + i < A * I := by
  calc a * I + i < a * I + I := by omega
    _ = (a + 1) * I := by ring
    _ ≤ A * I := Nat.mul_le_mul_right _ ha

theorem dec_eq (x I : Nat) : x / I * I + x % I = x := by
  rw [Nat.mul_comm]; exact Nat.div_add_mod x I

theorem dec_lt {x A I : Nat} (h : x < A * I) : x / I < A ∧ x % I < I := by
  have hI : 0 < I := by
    rcases Nat.eq_zero_or_pos I with h0 | h0
    · subst h0; simp at h
    · exact h0
  exact ⟨Nat.div_lt_of_lt_mul (by rwa [Nat.mul_comm]), Nat.mod_lt _ hI⟩

end Index

/-- Position of (block `b`, component `k`, node `n`, lane `j`) in a blocked E-vector with `nc` components, `es` nodes
and `bs` lanes: the layout documented in `backends/ref/ceed-ref-restriction.c` 430 and `CeedElemRestrictionGetELayout`. -/
def eIdx (nc es bs b k n j : Nat) : Nat := ((b * nc + k) * es + n) * bs + j

theorem eIdx_lt {nc es bs B b k n j : Nat} (hb : b < B) (hk : k < nc) (hn : n < es) (hj : j < bs) :
    eIdx nc es bs b k n j < B * nc * es * bs :=
  enc_lt (enc_lt (enc_lt hb hk) hn) hj

theorem eIdx_exists {nc es bs B x : Nat} (h : x < B * nc * es * bs) :
    ∃ b < B, ∃ k < nc, ∃ n < es, ∃ j < bs, x = eIdx nc es bs b k n j := by
  obtain ⟨h1, hj⟩ := dec_lt h
  obtain ⟨h2, hn⟩ := dec_lt h1
  obtain ⟨h3, hk⟩ := dec_lt h2
  refine ⟨_, h3, _, hk, _, hn, _, hj, ?_⟩
  simp only [eIdx, dec_eq]

/-- The program `f` fills the first `B` blocks of an E-vector of length `L` with `val` and leaves the rest. -/
def Gathers {α : Type _} (f : Buf α → Res (Buf α)) (nc es bs B L : Nat) (val : Nat → Nat → Nat → Nat → α) : Prop :=
  ∀ v : Buf α, v.len = L → ∃ v', f v = .ok v' ∧ v'.len = L ∧
    (∀ b < B, ∀ k < nc, ∀ n < es, ∀ j < bs, v'.val (eIdx nc es bs b k n j) = val b k n j) ∧
    ∀ x, B * nc * es * bs ≤ x → v'.val x = v.val x

/-- `val` read at a decoded position. -/
def eDec {α : Type _} (nc es bs : Nat) (val : Nat → Nat → Nat → Nat → α) (x : Nat) : α :=
  val (x / bs / es / nc) (x / bs / es % nc) (x / bs % es) (x % bs)

theorem eDec_eIdx {α : Type _} {nc es bs : Nat} (val : Nat → Nat → Nat → Nat → α) {b k n j : Nat} (hk : k < nc)
    (hn : n < es) (hj : j < bs) : eDec nc es bs val (eIdx nc es bs b k n j) = val b k n j := by
  simp only [eDec, eIdx, div_enc hj, mod_enc hj, div_enc hn, mod_enc hn, div_enc hk, mod_enc hk]

theorem Gathers.of_sets {α : Type _} {f : Buf α → Res (Buf α)} {nc es bs B L : Nat}
    {val : Nat → Nat → Nat → Nat → α} {S : Nat → Prop} (h : Sets f L S (eDec nc es bs val))
    (hS : ∀ x, S x ↔ x < B * nc * es * bs) : Gathers f nc es bs B L val := by
  intro v hv
  obtain ⟨v', e, l, a, c⟩ := h v hv
  refine ⟨v', e, l, ?_, ?_⟩
  · intro b hb k hk n hn j hj
    rw [a _ ((hS _).2 (eIdx_lt hb hk hn hj)), eDec_eIdx val hk hn hj]
  · intro x hx
    exact c x (fun h => by have := (hS x).1 h; omega)

theorem Gathers.congr {α : Type _} {f : Buf α → Res (Buf α)} {nc es bs B L : Nat}
    {val val' : Nat → Nat → Nat → Nat → α} (h : Gathers f nc es bs B L val)
    (e : ∀ b < B, ∀ k < nc, ∀ n < es, ∀ j < bs, val b k n j = val' b k n j) : Gathers f nc es bs B L val' := by
  intro v hv
  obtain ⟨v', e1, l, a, c⟩ := h v hv
  exact ⟨v', e1, l, fun b hb k hk n hn j hj => by rw [a b hb k hk n hn j hj, e b hb k hk n hn j hj], c⟩

theorem Sets.of_eq {α : Type _} {f f' : Buf α → Res (Buf α)} {L : Nat} {S : Nat → Prop} {g : Nat → α}
    (h : Sets f' L S g) (e : ∀ v : Buf α, v.len = L → f v = f' v) : Sets f L S g := by
  intro v hv; rw [e v hv]; exact h v hv

theorem Adds.of_eq {α : Type _} [AddCommMonoid α] {f f' : Buf α → Res (Buf α)} {L : Nat} {c : Nat → α}
    (h : Adds f' L c) (e : ∀ v : Buf α, v.len = L → f v = f' v) : Adds f L c := by
  intro v hv; rw [e v hv]; exact h v hv

theorem Adds.addAtI {α : Type _} [AddCommMonoid α] {L : Nat} {i : Int} (h0 : 0 ≤ i) (h : i < L) (x : α) :
    Adds (fun v => v.addAtI i x) L (fun t => if (t : Int) = i then x else 0) := by
  refine ((Adds.addAt (i := i.toNat) (L := L) (by omega) x).of_eq (fun v _ => by simp [Buf.addAtI, h0])).congr ?_
  intro j
  have : (j = i.toNat) ↔ ((j : Int) = i) := by omega
  simp [this]

theorem Buf.wrS_add {α : Type _} (b : Buf α) (i off : Nat) (x : α) : b.wrS (off + i) off x = b.wr i x := by
  simp [Buf.wrS]

theorem Buf.rdS_add {α : Type _} (b : Buf α) (i off : Nat) : b.rdS (off + i) off = b.rd i := by
  simp [Buf.rdS]

/-- Loops over blocks, components, nodes and lanes writing one E-vector entry each. -/
theorem Gathers.nest4 {α : Type _} {nc es bs B L : Nat} (hL : B * nc * es * bs ≤ L)
    {body : Nat → Nat → Nat → Nat → Buf α → Res (Buf α)} {val : Nat → Nat → Nat → Nat → α}
    (h : ∀ b < B, ∀ k < nc, ∀ n < es, ∀ j < bs, ∀ v : Buf α, v.len = L →
      body b k n j v = v.wr (eIdx nc es bs b k n j) (val b k n j)) :
    Gathers (fun v => loop B (fun b v => loop nc (fun k v => loop es (fun n v => loop bs (body b k n) v) v) v) v)
      nc es bs B L val := by
  refine Gathers.of_sets (Sets.loop (S := fun b x => ∃ k < nc, ∃ n < es, ∃ j < bs, x = eIdx nc es bs b k n j)
    (fun b hb => Sets.loop (fun k hk => Sets.loop (fun n hn => Sets.loop (fun j hj => ?_))))) ?_
  · exact (Sets.wr (by have := eIdx_lt hb hk hn hj; omega) (eDec_eIdx val hk hn hj).symm).of_eq (h b hb k hk n hn j hj)
  · intro x
    constructor
    · rintro ⟨b, hb, k, hk, n, hn, j, hj, rfl⟩
      exact eIdx_lt hb hk hn hj
    · intro hx
      obtain ⟨b, hb, k, hk, n, hn, j, hj, rfl⟩ := eIdx_exists hx
      exact ⟨b, hb, k, hk, n, hn, j, hj, rfl⟩

/-- The same with nodes and lanes in one loop. -/
theorem Gathers.nest3 {α : Type _} {nc es bs B L : Nat} (hL : B * nc * es * bs ≤ L)
    {body : Nat → Nat → Nat → Buf α → Res (Buf α)} {val : Nat → Nat → Nat → Nat → α}
    (h : ∀ b < B, ∀ k < nc, ∀ n < es, ∀ j < bs, ∀ v : Buf α, v.len = L →
      body b k (n * bs + j) v = v.wr (eIdx nc es bs b k n j) (val b k n j)) :
    Gathers (fun v => loop B (fun b v => loop nc (fun k v => loop (es * bs) (body b k) v) v) v)
      nc es bs B L val := by
  refine Gathers.of_sets (Sets.loop
    (S := fun b x => ∃ k < nc, ∃ i < es * bs, x = eIdx nc es bs b k (i / bs) (i % bs))
    (fun b hb => Sets.loop (fun k hk => Sets.loop (fun i hi => ?_)))) ?_
  · obtain ⟨hn, hj⟩ := dec_lt hi
    refine (Sets.wr (by have := eIdx_lt hb hk hn hj; omega) (eDec_eIdx val hk hn hj).symm).of_eq ?_
    intro v hv
    have := h b hb k hk _ hn _ hj v hv
    rwa [dec_eq] at this
  · intro x
    constructor
    · rintro ⟨b, hb, k, hk, i, hi, rfl⟩
      obtain ⟨hn, hj⟩ := dec_lt hi
      exact eIdx_lt hb hk hn hj
    · intro hx
      obtain ⟨b, hb, k, hk, n, hn, j, hj, rfl⟩ := eIdx_exists hx
      exact ⟨b, hb, k, hk, n * bs + j, enc_lt hn hj, by rw [div_enc hj, mod_enc hj]⟩

set_option linter.unusedSectionVars false

namespace Restriction
open Finset

section
variable {α : Type _} [CommRing α]

theorem wr_pos (nc bs es start b k n j : Nat) :
    (start + b) * bs * es * nc + (k * es + n) * bs + j = start * bs * es * nc + eIdx nc es bs b k n j := by
  simp only [eIdx]; ring

theorem wr_pos' (nc bs es start b k n j : Nat) :
    es * (k * bs + (start + b) * bs * nc) + (n * bs + j) = start * bs * es * nc + eIdx nc es bs b k n j := by
  simp only [eIdx]; ring

theorem stridedNT_gathers {nc bs es : Nat} {ne : Int} {start stop : Nat} {idx : Int → Int → Int → Int} {uu : Buf α}
    {L : Nat} (hL : (stop - start) * nc * es * bs ≤ L)
    (hidx : ∀ b < stop - start, ∀ k < nc, ∀ n < es, ∀ j < bs,
      0 ≤ idx n k (min ((((start + b) * bs + j : Nat) : Int)) (ne - 1)) ∧
      idx n k (min ((((start + b) * bs + j : Nat) : Int)) (ne - 1)) < uu.len) :
    Gathers (stridedNT nc bs es ne start stop (start * bs * es * nc) idx uu) nc es bs (stop - start) L
      (fun b k n j => uu.val (idx n k (min ((((start + b) * bs + j : Nat) : Int)) (ne - 1))).toNat) := by
  refine Gathers.nest4 hL ?_
  intro b hb k hk n hn j hj v hv
  obtain ⟨h0, h1⟩ := hidx b hb k hk n hn j hj
  rw [Buf.rdI_lt h0 h1, Res.bind_ok, wr_pos, Buf.wrS_add]

theorem offsetNT_gathers {nc bs es : Nat} {cs : Int} {start stop : Nat} {offs : Buf Int} {uu : Buf α}
    {L : Nat} (hL : (stop - start) * nc * es * bs ≤ L) (hoff : stop * bs * es ≤ offs.len)
    (hidx : ∀ b < stop - start, ∀ k < nc, ∀ n < es, ∀ j < bs,
      0 ≤ offs.val (j + n * bs + (start + b) * bs * es) + k * cs ∧
      offs.val (j + n * bs + (start + b) * bs * es) + k * cs < uu.len) :
    Gathers (offsetNT nc bs es cs start stop (start * bs * es * nc) offs uu) nc es bs (stop - start) L
      (fun b k n j => uu.val (offs.val (j + n * bs + (start + b) * bs * es) + k * cs).toNat) := by
  refine Gathers.nest3 hL ?_
  intro b hb k hk n hn j hj v hv
  obtain ⟨h0, h1⟩ := hidx b hb k hk n hn j hj
  have hlt : n * bs + j + (start + b) * bs * es < offs.len := by
    have h2 : (start + b) * es * bs + (n * bs + j) < stop * es * bs := by
      rw [Nat.mul_assoc, Nat.mul_assoc]; exact enc_lt (by omega) (enc_lt hn hj)
    have e1 : stop * bs * es = stop * es * bs := by ring
    have e2 : (start + b) * bs * es = (start + b) * es * bs := by ring
    omega
  rw [Nat.add_comm j (n * bs)] at *
  simp only [Buf.rd_lt hlt, Res.bind_ok]
  rw [Buf.rdI_lt h0 h1, Res.bind_ok, wr_pos', Buf.wrS_add]


theorem off_lt {bs es start stop b n j : Nat} {N : Nat} (hoff : stop * bs * es ≤ N) (hb : b < stop - start)
    (hn : n < es) (hj : j < bs) : j + n * bs + (start + b) * bs * es < N := by
  have h2 : (start + b) * es * bs + (n * bs + j) < stop * es * bs := by
    rw [Nat.mul_assoc, Nat.mul_assoc]; exact enc_lt (by omega) (enc_lt hn hj)
  have e1 : stop * bs * es = stop * es * bs := by ring
  have e2 : (start + b) * bs * es = (start + b) * es * bs := by ring
  omega

theorem cur_lt {bs es start stop b c j : Nat} {N : Nat} (hcur : stop * bs * (3 * es) ≤ N) (hb : b < stop - start)
    (hc : c < 3 * es) (hj : j < bs) : j + c * bs + (start + b) * bs * 3 * es < N := by
  have := off_lt hcur hb hc hj
  have e2 : (start + b) * bs * (3 * es) = (start + b) * bs * 3 * es := by ring
  omega

theorem orientedNT_gathers {nc bs es : Nat} {cs : Int} {start stop : Nat} {offs : Buf Int} {ors : Buf Bool}
    {uu : Buf α}
    {L : Nat} (hL : (stop - start) * nc * es * bs ≤ L) (hoff : stop * bs * es ≤ offs.len)
    (hors : stop * bs * es ≤ ors.len)
    (hidx : ∀ b < stop - start, ∀ k < nc, ∀ n < es, ∀ j < bs,
      0 ≤ offs.val (j + n * bs + (start + b) * bs * es) + k * cs ∧
      offs.val (j + n * bs + (start + b) * bs * es) + k * cs < uu.len) :
    Gathers (orientedNT nc bs es cs start stop (start * bs * es * nc) offs ors uu) nc es bs (stop - start) L
      (fun b k n j => uu.val (offs.val (j + n * bs + (start + b) * bs * es) + k * cs).toNat *
        (if ors.val (j + n * bs + (start + b) * bs * es) then -1 else 1)) := by
  refine Gathers.nest3 hL ?_
  intro b hb k hk n hn j hj v hv
  obtain ⟨h0, h1⟩ := hidx b hb k hk n hn j hj
  have hlt := off_lt hoff hb hn hj
  have hlt' := off_lt hors hb hn hj
  rw [Nat.add_comm j (n * bs)] at *
  simp only [Buf.rd_lt hlt, Buf.rd_lt hlt', Res.bind_ok]
  rw [Buf.rdI_lt h0 h1, Res.bind_ok, wr_pos', Buf.wrS_add]

/-- Entry `n` of the tridiagonal combination of lines 112-133, as a closed expression. -/
def curlVal (bs es : Nat) (cs : Int) (offs cur : Buf Int) (conv : Int → α) (uu : Buf α) (e k n j : Nat) : α :=
  let U := fun m => uu.val (offs.val (j + m * bs + e * es) + k * cs).toNat
  let C := fun d => conv (cur.val (j + d * bs + e * 3 * es))
  (if n = 0 then 0 else U (n - 1) * C (3 * n)) + U n * C (3 * n + 1) + (if n + 1 < es then U (n + 1) * C (3 * n + 2) else 0)

theorem curlTermNT_ok {nc bs es : Nat} {cs : Int} {start stop : Nat} {offs cur : Buf Int} {conv : Int → α}
    {uu : Buf α} (hoff : stop * bs * es ≤ offs.len) (hcur : stop * bs * (3 * es) ≤ cur.len)
    (hidx : ∀ b < stop - start, ∀ k < nc, ∀ n < es, ∀ j < bs,
      0 ≤ offs.val (j + n * bs + (start + b) * bs * es) + k * cs ∧
      offs.val (j + n * bs + (start + b) * bs * es) + k * cs < uu.len)
    {b k j m n d : Nat} (hb : b < stop - start) (hk : k < nc) (hj : j < bs) (hm : m < es) (hd : 3 * n + d < 3 * es) :
    curlTermNT bs es cs offs cur conv uu ((start + b) * bs) k j m n d =
      .ok (uu.val (offs.val (j + m * bs + (start + b) * bs * es) + k * cs).toNat *
        conv (cur.val (j + (3 * n + d) * bs + (start + b) * bs * 3 * es))) := by
  obtain ⟨h0, h1⟩ := hidx b hb k hk m hm j hj
  have hlt := off_lt hoff hb hm hj
  have hlt' := cur_lt hcur hb hd hj
  simp only [curlTermNT, Buf.rd_lt hlt, Buf.rd_lt hlt', Res.bind_ok]
  rw [Buf.rdI_lt h0 h1, Res.bind_ok]

theorem lastN_eq {es : Nat} (h : 2 ≤ es) : lastN es = es - 1 := by
  unfold lastN; split <;> omega

theorem curlNT_gathers {nc bs es : Nat} {cs : Int} {start stop : Nat} {offs cur : Buf Int} {conv : Int → α}
    {uu : Buf α} {L : Nat} (hes : 2 ≤ es) (hL : (stop - start) * nc * es * bs ≤ L)
    (hoff : stop * bs * es ≤ offs.len) (hcur : stop * bs * (3 * es) ≤ cur.len)
    (hidx : ∀ b < stop - start, ∀ k < nc, ∀ n < es, ∀ j < bs,
      0 ≤ offs.val (j + n * bs + (start + b) * bs * es) + k * cs ∧
      offs.val (j + n * bs + (start + b) * bs * es) + k * cs < uu.len) :
    Gathers (curlNT nc bs es cs start stop (start * bs * es * nc) offs cur conv uu) nc es bs (stop - start) L
      (fun b k n j => curlVal bs es cs offs cur conv uu ((start + b) * bs) k n j) := by
  have hrow : ∀ b < stop - start, ∀ k < nc, ∀ n < es, ∀ j < bs, ∀ x : α,
      x = curlVal bs es cs offs cur conv uu ((start + b) * bs) k n j →
      Sets (fun v : Buf α => v.wrS ((start + b) * bs * es * nc + (k * es + n) * bs + j) (start * bs * es * nc) x) L
        (fun y => y = eIdx nc es bs b k n j)
        (eDec nc es bs (fun b k n j => curlVal bs es cs offs cur conv uu ((start + b) * bs) k n j)) := by
    intro b hb k hk n hn j hj x hx
    refine (Sets.wr (by have := eIdx_lt hb hk hn hj; omega) ?_).of_eq (f' := fun v => v.wr (eIdx nc es bs b k n j) x) ?_
    · rw [eDec_eIdx _ hk hn hj, hx]
    · intro v _; rw [wr_pos, Buf.wrS_add]
  refine Gathers.of_sets (Sets.loop (S := fun b x => ∃ k < nc, (((∃ j < bs, x = eIdx nc es bs b k 0 j) ∨
      (∃ n < es - 2, ∃ j < bs, x = eIdx nc es bs b k (n + 1) j)) ∨ (∃ j < bs, x = eIdx nc es bs b k (es - 1) j)))
    (fun b hb => Sets.loop (fun k hk => ?_))) ?_
  · have t := @curlTermNT_ok α _ nc bs es cs start stop offs cur conv uu hoff hcur hidx
    refine ((Sets.seq (Sets.loop fun j hj => ?_) (Sets.loop fun n hn => Sets.loop fun j hj => ?_)).seq
      (Sets.loop fun j hj => ?_)).of_eq (fun v _ => (Res.bind_assoc' _ _ _).symm)
    · rw [t hb hk hj (by omega) (by omega), t hb hk hj (by omega) (by omega)]
      refine hrow b hb k hk 0 (by omega) j hj _ ?_
      simp [curlVal, show 1 < es by omega]
    · rw [t hb hk hj (by omega) (by omega), t hb hk hj (by omega) (by omega), t hb hk hj (by omega) (by omega)]
      refine hrow b hb k hk (n + 1) (by omega) j hj _ ?_
      simp [curlVal, show n + 1 + 1 < es by omega]
    · rw [lastN_eq hes]
      rw [t hb hk hj (by omega) (by omega), t hb hk hj (by omega) (by omega)]
      refine hrow b hb k hk (es - 1) (by omega) j hj _ ?_
      simp [curlVal, show es - 1 ≠ 0 by omega, show ¬ (es - 1 + 1 < es) by omega]
  · intro x
    constructor
    · rintro ⟨b, hb, k, hk, (⟨j, hj, rfl⟩ | ⟨n, hn, j, hj, rfl⟩) | ⟨j, hj, rfl⟩⟩
      · exact eIdx_lt hb hk (by omega) hj
      · exact eIdx_lt hb hk (by omega) hj
      · exact eIdx_lt hb hk (by omega) hj
    · intro hx
      obtain ⟨b, hb, k, hk, n, hn, j, hj, rfl⟩ := eIdx_exists hx
      refine ⟨b, hb, k, hk, ?_⟩
      rcases Nat.eq_zero_or_pos n with rfl | h0
      · exact Or.inl (Or.inl ⟨j, hj, rfl⟩)
      · by_cases h1 : n = es - 1
        · subst h1; exact Or.inr ⟨j, hj, rfl⟩
        · exact Or.inl (Or.inr ⟨n - 1, by omega, j, hj, by rw [show n - 1 + 1 = n by omega]⟩)

/-! ### Transpose kernels -/

theorem laneEnd_le (bs : Nat) (ne : Int) (e : Nat) : laneEnd bs ne e ≤ bs := by
  unfold laneEnd; omega

theorem rdS_pos {nc bs es start stop b k n j : Nat} {uu : Buf α} (hu : (stop - start) * nc * es * bs ≤ uu.len)
    (hb : b < stop - start) (hk : k < nc) (hn : n < es) (hj : j < bs) :
    uu.rdS ((start + b) * bs * es * nc + (k * es + n) * bs + j) (start * bs * es * nc) =
      .ok (uu.val (eIdx nc es bs b k n j)) := by
  rw [wr_pos, Buf.rdS_add, Buf.rd_lt (by have := eIdx_lt hb hk hn hj; omega)]

theorem rdS_pos' {nc bs es start stop b k n j : Nat} {uu : Buf α} (hu : (stop - start) * nc * es * bs ≤ uu.len)
    (hb : b < stop - start) (hk : k < nc) (hn : n < es) (hj : j < bs) :
    uu.rdS (es * (k * bs + (start + b) * bs * nc) + (n * bs + j)) (start * bs * es * nc) =
      .ok (uu.val (eIdx nc es bs b k n j)) := by
  rw [wr_pos', Buf.rdS_add, Buf.rd_lt (by have := eIdx_lt hb hk hn hj; omega)]

theorem stridedT_adds {nc bs es : Nat} {ne : Int} {start stop : Nat} {idx : Int → Int → Int → Int} {uu : Buf α}
    {L : Nat} (hu : (stop - start) * nc * es * bs ≤ uu.len)
    (hidx : ∀ b < stop - start, ∀ k < nc, ∀ n < es, ∀ j < laneEnd bs ne ((start + b) * bs),
      0 ≤ idx n k (((start + b) * bs + j : Nat) : Int) ∧ idx n k (((start + b) * bs + j : Nat) : Int) < L) :
    Adds (stridedT nc bs es ne start stop (start * bs * es * nc) idx uu) L
      (fun t => ∑ b ∈ range (stop - start), ∑ k ∈ range nc, ∑ n ∈ range es,
        ∑ j ∈ range (laneEnd bs ne ((start + b) * bs)),
          if (t : Int) = idx n k (((start + b) * bs + j : Nat) : Int) then uu.val (eIdx nc es bs b k n j) else 0) := by
  refine Adds.loop fun b hb => Adds.loop fun k hk => Adds.loop fun n hn => Adds.loop fun j hj => ?_
  obtain ⟨h0, h1⟩ := hidx b hb k hk n hn j hj
  have hj' : j < bs := lt_of_lt_of_le hj (laneEnd_le _ _ _)
  refine (Adds.addAtI h0 h1 _).of_eq fun v _ => ?_
  rw [rdS_pos hu hb hk hn hj', Res.bind_ok]

theorem offsetT_adds {nc bs es : Nat} {ne cs : Int} {start stop : Nat} {offs : Buf Int} {uu : Buf α}
    {L : Nat} (hu : (stop - start) * nc * es * bs ≤ uu.len) (hoff : stop * bs * es ≤ offs.len)
    (hidx : ∀ b < stop - start, ∀ k < nc, ∀ n < es, ∀ j < laneEnd bs ne ((start + b) * bs),
      0 ≤ offs.val (j + n * bs + (start + b) * bs * es) + k * cs ∧
      offs.val (j + n * bs + (start + b) * bs * es) + k * cs < L) :
    Adds (offsetT nc bs es ne cs start stop (start * bs * es * nc) offs uu) L
      (fun t => ∑ b ∈ range (stop - start), ∑ k ∈ range nc, ∑ n ∈ range es,
        ∑ j ∈ range (laneEnd bs ne ((start + b) * bs)),
          if (t : Int) = offs.val (j + n * bs + (start + b) * bs * es) + k * cs
          then uu.val (eIdx nc es bs b k n j) else 0) := by
  refine Adds.loop fun b hb => Adds.loop fun k hk => Adds.loop fun n hn => Adds.loop fun j hj => ?_
  obtain ⟨h0, h1⟩ := hidx b hb k hk n hn j hj
  have hj' : j < bs := lt_of_lt_of_le hj (laneEnd_le _ _ _)
  have hlt := off_lt hoff hb hn hj'
  refine (Adds.addAtI h0 h1 _).of_eq fun v _ => ?_
  simp only [rdS_pos' hu hb hk hn hj', Res.bind_ok]
  rw [Nat.add_comm (n * bs) j, Buf.rd_lt hlt, Res.bind_ok]

theorem orientedT_adds {nc bs es : Nat} {ne cs : Int} {start stop : Nat} {offs : Buf Int} {ors : Buf Bool}
    {uu : Buf α} {L : Nat} (hu : (stop - start) * nc * es * bs ≤ uu.len) (hoff : stop * bs * es ≤ offs.len)
    (hors : stop * bs * es ≤ ors.len)
    (hidx : ∀ b < stop - start, ∀ k < nc, ∀ n < es, ∀ j < laneEnd bs ne ((start + b) * bs),
      0 ≤ offs.val (j + n * bs + (start + b) * bs * es) + k * cs ∧
      offs.val (j + n * bs + (start + b) * bs * es) + k * cs < L) :
    Adds (orientedT nc bs es ne cs start stop (start * bs * es * nc) offs ors uu) L
      (fun t => ∑ b ∈ range (stop - start), ∑ k ∈ range nc, ∑ n ∈ range es,
        ∑ j ∈ range (laneEnd bs ne ((start + b) * bs)),
          if (t : Int) = offs.val (j + n * bs + (start + b) * bs * es) + k * cs
          then uu.val (eIdx nc es bs b k n j) *
            (if ors.val (j + n * bs + (start + b) * bs * es) then -1 else 1) else 0) := by
  refine Adds.loop fun b hb => Adds.loop fun k hk => Adds.loop fun n hn => Adds.loop fun j hj => ?_
  obtain ⟨h0, h1⟩ := hidx b hb k hk n hn j hj
  have hj' : j < bs := lt_of_lt_of_le hj (laneEnd_le _ _ _)
  have hlt := off_lt hoff hb hn hj'
  have hlt' := off_lt hors hb hn hj'
  refine (Adds.addAtI h0 h1 _).of_eq fun v _ => ?_
  simp only [rdS_pos' hu hb hk hn hj', Res.bind_ok]
  rw [Nat.add_comm (n * bs) j, Buf.rd_lt hlt, Buf.rd_lt hlt', Res.bind_ok, Res.bind_ok]

/-- Contribution to node `n` of the transposed tridiagonal combination of lines 283-312, as a closed expression. -/
def curlTVal (nc bs es : Nat) (cur : Buf Int) (conv : Int → α) (uu : Buf α) (start b k n j : Nat) : α :=
  let U := fun m => uu.val (eIdx nc es bs b k m j)
  let C := fun d => conv (cur.val (j + d * bs + (start + b) * bs * 3 * es))
  (if n = 0 then 0 else U (n - 1) * C (3 * n - 1)) + U n * C (3 * n + 1) +
    (if n + 1 < es then U (n + 1) * C (3 * n + 3) else 0)

theorem curlTermT_ok {nc bs es start stop : Nat} {cur : Buf Int} {conv : Int → α} {uu : Buf α}
    (hu : (stop - start) * nc * es * bs ≤ uu.len) (hcur : stop * bs * (3 * es) ≤ cur.len)
    {b k j m c : Nat} (hb : b < stop - start) (hk : k < nc) (hj : j < bs) (hm : m < es) (hc : c < 3 * es) :
    curlTermT nc bs es (start * bs * es * nc) cur conv uu ((start + b) * bs) k j m c =
      .ok (uu.val (eIdx nc es bs b k m j) * conv (cur.val (j + c * bs + (start + b) * bs * 3 * es))) := by
  have hlt' := cur_lt hcur hb hc hj
  simp only [curlTermT, rdS_pos hu hb hk hm hj, Buf.rd_lt hlt', Res.bind_ok]

theorem sum_rows {β : Type _} [AddCommMonoid β] {es : Nat} (h : 2 ≤ es) (f : Nat → β) :
    ∑ n ∈ range es, f n = f 0 + ∑ n ∈ range (es - 2), f (n + 1) + f (es - 1) := by
  obtain ⟨m, rfl⟩ : ∃ m, es = m + 2 := ⟨es - 2, by omega⟩
  rw [sum_range_succ, sum_range_succ', add_comm (∑ i ∈ range m, _)]
  rfl

theorem curlT_adds {nc bs es : Nat} {ne cs : Int} {start stop : Nat} {offs cur : Buf Int} {conv : Int → α}
    {uu : Buf α} {L : Nat} (hes : 2 ≤ es) (hu : (stop - start) * nc * es * bs ≤ uu.len)
    (hoff : stop * bs * es ≤ offs.len) (hcur : stop * bs * (3 * es) ≤ cur.len)
    (hidx : ∀ b < stop - start, ∀ k < nc, ∀ n < es, ∀ j < laneEnd bs ne ((start + b) * bs),
      0 ≤ offs.val (j + n * bs + (start + b) * bs * es) + k * cs ∧
      offs.val (j + n * bs + (start + b) * bs * es) + k * cs < L) :
    Adds (curlT nc bs es ne cs start stop (start * bs * es * nc) offs cur conv uu) L
      (fun t => ∑ b ∈ range (stop - start), ∑ k ∈ range nc, ∑ n ∈ range es,
        ∑ j ∈ range (laneEnd bs ne ((start + b) * bs)),
          if (t : Int) = offs.val (j + n * bs + (start + b) * bs * es) + k * cs
          then curlTVal nc bs es cur conv uu start b k n j else 0) := by
  refine Adds.loop fun b hb => Adds.loop fun k hk => ?_
  have t := fun {j m c} => @curlTermT_ok α _ nc bs es start stop cur conv uu hu hcur b k j m c hb hk
  have hrow : ∀ n < es, ∀ j < laneEnd bs ne ((start + b) * bs), ∀ x : α,
      x = curlTVal nc bs es cur conv uu start b k n j →
      Adds (fun v : Buf α => do
          let o ← offs.rd (j + n * bs + (start + b) * bs * es)
          v.addAtI (o + k * cs) x) L
        (fun t => if (t : Int) = offs.val (j + n * bs + (start + b) * bs * es) + k * cs
          then curlTVal nc bs es cur conv uu start b k n j else 0) := by
    intro n hn j hj x hx
    subst hx
    have hj' : j < bs := lt_of_lt_of_le hj (laneEnd_le _ _ _)
    obtain ⟨h0, h1⟩ := hidx b hb k hk n hn j hj
    refine (Adds.addAtI h0 h1 _).of_eq fun v _ => ?_
    rw [Buf.rd_lt (off_lt hoff hb hn hj'), Res.bind_ok]
  have F : ∀ n t, ∃ x, x = ∑ j ∈ range (laneEnd bs ne ((start + b) * bs)),
      if ((t : Nat) : Int) = offs.val (j + n * bs + (start + b) * bs * es) + k * cs
          then curlTVal nc bs es cur conv uu start b k n j else 0 := fun n t => ⟨_, rfl⟩
  choose F hF using F
  refine Adds.congr (c := fun t => F 0 t + ∑ n ∈ range (es - 2), F (n + 1) t + F (es - 1) t) ?_
    (fun t => by rw [← sum_rows hes (fun n => F n t)]; exact sum_congr rfl (fun n _ => hF n t))
  simp only [hF]
  refine ((Adds.seq (Adds.loop fun j hj => ?_) (Adds.loop fun n hn => Adds.loop fun j hj => ?_)).seq
      (Adds.loop fun j hj => ?_)).of_eq (fun v _ => (Res.bind_assoc' _ _ _).symm)
  · have hj' : j < bs := lt_of_lt_of_le hj (laneEnd_le _ _ _)
    rw [t hj' (by omega) (by omega), t hj' (by omega) (by omega)]
    refine hrow 0 (by omega) j hj _ ?_
    simp [curlTVal, show 1 < es by omega]
  · have hj' : j < bs := lt_of_lt_of_le hj (laneEnd_le _ _ _)
    rw [t hj' (by omega) (by omega), t hj' (by omega) (by omega), t hj' (by omega) (by omega)]
    refine hrow (n + 1) (by omega) j hj _ ?_
    simp [curlTVal, show n + 1 + 1 < es by omega]
  · have hj' : j < bs := lt_of_lt_of_le hj (laneEnd_le _ _ _)
    rw [lastN_eq hes]
    rw [t hj' (by omega) (by omega), t hj' (by omega) (by omega)]
    refine hrow (es - 1) (by omega) j hj _ ?_
    simp [curlTVal, show es - 1 ≠ 0 by omega, show ¬ (es - 1 + 1 < es) by omega]

end
end Restriction
end Verif
