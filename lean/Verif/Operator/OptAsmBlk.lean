import Verif.Operator.OptAsmCols

/-!
# Assembly of one block (helper lemmas)
-/

set_option linter.unusedSectionVars false

namespace Verif
namespace Operator

open Finset
open Restriction (RData Made Rstr Rep laneEnd stridedData)
open Basis (Bas EMode)

variable {α : Type} [CommRing α]

/-! ## Passive inputs -/

theorem inputsSkip_ok {op : Oper α} {S : Meaning α} {bs : Nat} (h : BlkOK op S bs) {L : Nat → Nat → α} {s : OSt α}
    (hp : BPre op S bs L s) (junk : Nat → Nat → α) {b : Nat} (hb : b < nbk op bs) {q w eb : Nat → Buf α}
    {vs : Nat → LVec α} (hq : QB op S bs q) (heb : EB op S bs eb) :
    ∃ q' eb', M.loop op.nin (inputSkip op junk bs b) (s.put q w eb vs) = .ok (s.put q' w eb' vs) () ∧ QB op S bs q' ∧
      EB op S bs eb' ∧ (∀ i < op.nin, (op.inp i).vec ≠ .active → LaneIn op S bs b L .null i (q' i)) ∧
      ∀ i, (op.inp i).vec = .active → q' i = q i := by
  obtain ⟨x, e, h1, h2, h3, h4⟩ := loop_ok (n := op.nin) (body := inputSkip op junk bs b)
    (fun x : (Nat → Buf α) × (Nat → Buf α) => s.put x.1 w x.2 vs)
    (fun n x => QB op S bs x.1 ∧ EB op S bs x.2 ∧ (∀ i < n, (op.inp i).vec ≠ .active → LaneIn op S bs b L .null i (x.1 i)) ∧
      ∀ i, (op.inp i).vec = .active → x.1 i = q i) (a := (q, eb)) ⟨hq, heb, fun i hi => absurd hi (by omega), fun _ _ => rfl⟩
    (by
      rintro i hi ⟨q1, eb1⟩ ⟨h1, h2, h3, h4⟩
      simp only at h1 h2 h3 h4
      unfold inputSkip
      by_cases ha : (op.inp i).vec = .active
      · rw [if_pos ha]
        refine ⟨(q1, eb1), rfl, h1, h2, ?_, h4⟩
        intro j hj hn
        have : j ≠ i := by rintro rfl; exact hn ha
        exact h3 j (by omega) hn
      rw [if_neg ha]
      have W := inputBlock1_wp h hp junk hi hb (inv := .null) (w := w) (vs := vs) h1 h2 (R := True) (fun _ _ hh => absurd hh ha)
      cases e : inputBlock1 op junk bs .null b i (s.put q1 w eb1 vs) with
      | err s' c => exact absurd trivial (M.wp_err W e).1
      | ub => exact absurd trivial (M.wp_ub W e)
      | ok s' u =>
        obtain ⟨_, v, eb', rfl, g1, g2, g3⟩ := M.wp_ok W e
        have hl := g3 (fun hh => absurd hh ha)
        refine ⟨(Function.update q1 i v, eb'), rfl, ?_, g1, ?_, ?_⟩ <;> dsimp only
        · intro j hj
          by_cases hji : j = i
          · subst hji
            rw [Function.update_self]
            refine ⟨g2, fun hw x hx k hk => ?_⟩
            rw [hl x (by rw [(h.inW j hj hw).1]; omega) k hk]
            unfold Meaning.inVal
            simp only [hw]
          · rw [Function.update_of_ne hji]; exact h1 j hj
        · intro j hj hn
          by_cases hji : j = i
          · subst hji; rw [Function.update_self]; exact hl
          · rw [Function.update_of_ne hji]; exact h3 j (by omega) hn
        · intro j hj
          have hji : j ≠ i := by rintro rfl; exact ha hj
          rw [Function.update_of_ne hji]; exact h4 j hj)
  exact ⟨x.1, x.2, e, h1, h2, h3, h4⟩

/-! ## Values -/

/-- Values of the passive inputs on all points of a block. -/
def passB (op : Oper α) (S : Meaning α) (bs b : Nat) (L : Nat → Nat → α) : Nat → Nat → α :=
  fun i x => S.inVal op L .null (min (b * bs + x % bs) (op.ne - 1)) i (x / bs)

theorem mix_lane {op : Oper α} {S : Meaning α} {bs b : Nat} {L : Nat → Nat → α} (F : Nat → (Nat → Nat → α) → Nat → Nat → α)
    {j : Nat} (hj : j < bs) (i0 c0 i x : Nat) :
    mixv (op.wide F bs) (passB op S bs b L) (unit (op.wide F bs) i0 c0) i (x * bs + j) =
      S.mix op L (min (b * bs + j) (op.ne - 1)) (unit op i0 c0) i x := by
  have hb : 0 < bs := by omega
  have d1 : (x * bs + j) / bs = x := by
    rw [Nat.mul_comm, Nat.mul_add_div hb, Nat.div_eq_of_lt hj, Nat.add_zero]
  have d2 : (x * bs + j) % bs = j := by
    rw [Nat.mul_comm, Nat.mul_add_mod, Nat.mod_eq_of_lt hj]
  have hiff : x * bs + j < op.Q * bs * (op.inp i).size ↔ x < op.Q * (op.inp i).size := by
    rw [show op.Q * bs * (op.inp i).size = op.Q * (op.inp i).size * bs by ring]
    constructor
    · intro hh
      rw [← d1]; exact Nat.div_lt_of_lt_mul (by rw [Nat.mul_comm bs (op.Q * _)]; exact hh)
    · intro hh
      have : (x + 1) * bs ≤ op.Q * (op.inp i).size * bs := Nat.mul_le_mul_right _ hh
      rw [Nat.add_mul, Nat.one_mul] at this
      omega
  have hu : unit (op.wide F bs) i0 c0 i (x * bs + j) = unit op i0 c0 i x := by
    unfold unit
    have : (x * bs + j) / (op.Q * bs) = x / op.Q := by
      rw [Nat.mul_comm op.Q bs, ← Nat.div_div_eq_div_mul, d1]
    show (if i = i0 ∧ (x * bs + j) / (op.Q * bs) = c0 then (1 : α) else 0) = _
    rw [this]
  unfold mixv Meaning.mix
  show (if i < op.nin ∧ x * bs + j < op.Q * bs * (op.inp i).size then if (op.inp i).vec = .active then _ else passB op S bs b L i (x * bs + j) else 0) = _
  rw [hu]
  unfold passB
  rw [d1, d2]
  simp only [hiff]

/-- The QFunction on unit inputs, on a block and on its elements. -/
theorem eval_lane {op : Oper α} {S : Meaning α} {bs b : Nat} {L : Nat → Nat → α} {F : Nat → (Nat → Nat → α) → Nat → Nat → α}
    (hF : Pointwise op F) {j : Nat} (hj : j < bs) (i0 c0 o d : Nat) {q : Nat} (hq : q < op.Q) :
    (op.wide F bs).eval (mixv (op.wide F bs) (passB op S bs b L) (unit (op.wide F bs) i0 c0)) o (d * (op.Q * bs) + (q * bs + j)) =
      op.eval (S.mix op L (min (b * bs + j) (op.ne - 1)) (unit op i0 c0)) o (d * op.Q + q) := by
  have key := fun i x => mix_lane (op := op) (S := S) (b := b) (L := L) F hj i0 c0 i x
  have hx : ∀ c, c * (op.Q * bs) + (q * bs + j) = (c * op.Q + q) * bs + j := by intro c; ring
  unfold Oper.eval
  show (if op.isId = true then _ else F (op.Q * bs) _) o _ = _
  by_cases hid : op.isId = true
  · rw [if_pos hid, if_pos hid, hx]
    exact key _ _
  · rw [if_neg hid, if_neg hid]
    obtain ⟨h1, g, hg⟩ := hF
    have hlt : q * bs + j < op.Q * bs := by
      have : (q + 1) * bs ≤ op.Q * bs := Nat.mul_le_mul_right _ hq
      rw [Nat.add_mul, Nat.one_mul] at this
      omega
    rw [hg _ _ o d _ hlt, h1, hg _ _ o d _ hq]
    congr 1
    funext i c
    rw [hx]
    exact key _ _

/-! ## Adding a block to the assembled vector -/

/-- Data of the restriction of the assembled vector. -/
def qfData (op : Oper α) : RData α :=
  stridedData op.ne op.Q (op.cIn * op.cOut) (1, op.Q, ((op.cIn * op.cOut * op.Q : Nat) : Int))

theorem asm_lidx (op : Oper α) (e m k : Nat) : (qfData op).lidx e m k = (e * (op.cIn * op.cOut) + k) * op.Q + m := by
  unfold qfData stridedData
  simp only
  rw [if_neg (by simp)]
  have : ((m : Int) * 1 + k * op.Q + e * ((op.cIn * op.cOut * op.Q : Nat) : Int)) =
      (((e * (op.cIn * op.cOut) + k) * op.Q + m : Nat) : Int) := by push_cast; ring
  rw [this, Int.toNat_natCast]

theorem asm_pos {K Q e k m e' k' m' : Nat} (hm : m < Q) (hm' : m' < Q) (hk : k < K) (hk' : k' < K)
    (h : (e * K + k) * Q + m = (e' * K + k') * Q + m') : e = e' ∧ k = k' ∧ m = m' := by
  have dec : ∀ {a b n x y : Nat}, x < n → y < n → a * n + x = b * n + y → a = b ∧ x = y := by
    intro a b n x y hx hy hh
    have h1 := congrArg (· / n) hh
    have hn : 0 < n := by omega
    simp only [Nat.mul_comm _ n, Nat.mul_add_div hn, Nat.div_eq_of_lt hx, Nat.div_eq_of_lt hy, Nat.add_zero] at h1
    subst h1
    exact ⟨rfl, by omega⟩
  obtain ⟨h1, h2⟩ := dec hm hm' h
  obtain ⟨h3, h4⟩ := dec hk hk' h1
  exact ⟨h3, h4, h2⟩

/-- One element adds its data at its own positions only. -/
theorem asm_scatter (op : Oper α) (u : Nat → Nat → α) (e e' : Nat) {k n : Nat} (hk : k < op.cIn * op.cOut) (hn : n < op.Q) :
    (qfData op).elemScatter u e ((e' * (op.cIn * op.cOut) + k) * op.Q + n) = if e = e' then u k n else 0 := by
  unfold RData.elemScatter
  have hnc : (qfData op : RData α).nc = op.cIn * op.cOut := rfl
  have hes : (qfData op : RData α).es = op.Q := rfl
  have hco : ∀ a b c, (qfData op : RData α).coef a b c = if c = b then 1 else 0 := fun _ _ _ => rfl
  rw [hnc, hes]
  by_cases hee : e = e'
  · subst hee
    rw [if_pos rfl, sum_eq_single k, sum_eq_single n, sum_eq_single n]
    · rw [asm_lidx, if_pos rfl, hco, if_pos rfl, one_mul]
    · intro m _ hmn
      rw [hco, if_neg hmn]; simp
    · intro hh; exact absurd (mem_range.2 hn) hh
    · intro n' hn' hne
      refine sum_eq_zero (fun m hm => ?_)
      rw [hco]
      by_cases hmn : m = n'
      · subst hmn
        rw [asm_lidx, if_neg]
        intro hh
        exact hne (asm_pos (mem_range.1 hm) hn hk hk hh).2.2
      · rw [if_neg hmn]; simp
    · intro hh; exact absurd (mem_range.2 hn) hh
    · intro k' hk' hne
      refine sum_eq_zero (fun n' hn' => sum_eq_zero (fun m hm => ?_))
      rw [asm_lidx, if_neg]
      intro hh
      exact hne (asm_pos (mem_range.1 hm) hn (mem_range.1 hk') hk hh).2.1
    · intro hh; exact absurd (mem_range.2 hk) hh
  · rw [if_neg hee]
    refine sum_eq_zero (fun k' hk' => sum_eq_zero (fun n' hn' => sum_eq_zero (fun m hm => ?_)))
    rw [asm_lidx, if_neg]
    intro hh
    exact hee (asm_pos (mem_range.1 hm) hn (mem_range.1 hk') hk hh).1

/-- The restriction of the assembled vector, with blocks. -/
structure AsmR (op : Oper α) (bs : Nat) (r : Rstr) : Prop where
  rep : Rep r .plain (qfData op)
  bs : r.blockSize = bs
  ls : r.lSize = op.alen

theorem lane_end {bs ne b j : Nat} : j < laneEnd bs ne (b * bs) ↔ j < bs ∧ b * bs + j < ne := by
  unfold laneEnd
  omega

/-- Adding block `b`. -/
theorem scatter_ok {op : Oper α} {bs : Nat} {r : Rstr} (h : AsmR op bs r) {b : Nat} (hb : b < nbk op bs) {u v : Buf α}
    (hv : v.len = op.alen) (hu : u.len = bs * op.Q * op.cIn * op.cOut) :
    ∃ v', Restriction.applyBlock r b .transpose u v = .ok v' ∧ v'.len = op.alen ∧
      ∀ e k n, k < op.cIn * op.cOut → n < op.Q → e < op.ne →
        v'.val ((e * (op.cIn * op.cOut) + k) * op.Q + n) = v.val ((e * (op.cIn * op.cOut) + k) * op.Q + n) +
          if b * bs ≤ e ∧ e < b * bs + bs then u.val ((k * op.Q + n) * bs + (e - b * bs)) else 0 := by
  have hnb : r.numBlock = nbk op bs := by rw [h.rep.nb, h.bs]; rfl
  have e1 := h.rep.block_t (b := b) (by omega) (u := u) (v := v) (by rw [h.ls, hv])
    (by rw [hu, h.bs]; show _ = bs * op.Q * (op.cIn * op.cOut); ring)
  refine ⟨_, e1, hv, ?_⟩
  intro e k n hk hn he
  show v.val _ + _ = _
  congr 1
  have hne : r.numElem = (op.ne : Int) := h.rep.ne
  rw [h.bs, hne]
  rw [sum_congr rfl (fun j _ => asm_scatter op _ (b * bs + j) e hk hn)]
  by_cases hh : b * bs ≤ e ∧ e < b * bs + bs
  · rw [if_pos hh, sum_eq_single (e - b * bs)]
    · rw [if_pos (by omega)]
      show u.val _ = _
      congr 1
      unfold eIdx
      show ((0 * _ + k) * op.Q + n) * bs + _ = _
      rw [Nat.zero_mul, Nat.zero_add]
    · intro j _ hj
      rw [if_neg (by omega)]
    · intro hn'
      exact absurd (mem_range.2 (lane_end.2 ⟨by omega, by omega⟩)) hn'
  · rw [if_neg hh]
    refine sum_eq_zero (fun j hj => ?_)
    have := lane_end.1 (mem_range.1 hj)
    rw [if_neg (by omega)]

/-! ## One block -/

/-- The state with quadrature data `x.q`, block E-vectors, work array and pointer, assembled array. -/
structure Work (α : Type) where
  q : Nat → Buf α
  eb : Nat → Buf α
  arr : Buf α
  off : Nat
  out : Buf α

/-- The state with other work data. -/
def BSt.put (s : BSt α) (x : Work α) : BSt α :=
  { s with a := { s.a with st := s.a.st.put x.q s.a.st.impl.eOut, arr := x.arr, off := x.off }, eBlk := x.eb, out := x.out }

theorem liftO_ok {β : Type} {m : M (OSt α) β} {s : BSt α} {t : OSt α} {b : β} (h : m s.o = .ok t b) :
    liftO m s = .ok { s with a := { s.a with st := t.base }, br := t.br, eBlk := t.eBlk } b := by
  unfold liftO; rw [h]

theorem liftAB_ok {β : Type} {m : M (ASt α) β} {s : BSt α} {t : ASt α} {b : β} (h : m s.a = .ok t b) :
    liftAB m s = .ok { s with a := t } b := by
  unfold liftAB; rw [h]

/-- The assembled array after `b` blocks. -/
structure Done (op : Oper α) (S : Meaning α) (L : Nat → Nat → α) (bs b : Nat) (v : Buf α) : Prop where
  cols : ∀ e < op.ne, e < b * bs → ∀ i < op.nin, (op.inp i).vec = .active → ∀ c < (op.inp i).size,
    ∀ o < op.nout, (op.out o).vec = .active → ∀ d < (op.out o).size, ∀ q < op.Q,
      v.val (op.apos e i c o d q) = op.eval (S.mix op L e (unit op i c)) o (d * op.Q + q)
  rest : ∀ e < op.ne, b * bs ≤ e → ∀ k < op.cIn * op.cOut, ∀ n < op.Q, v.val ((e * (op.cIn * op.cOut) + k) * op.Q + n) = 0

/-- What holds of the work data between blocks. -/
structure WInv (op : Oper α) (S : Meaning α) (F : Nat → (Nat → Nat → α) → Nat → Nat → α) (L : Nat → Nat → α) (bs : Nat)
    (z : Prop) (b : Nat) (x : Work α) : Prop where
  q : QB op S bs x.q
  eb : EB op S bs x.eb
  arr : x.arr.len = bs * op.Q * op.cIn * op.cOut
  out : x.out.len = op.alen
  clean : z → Clean (op.wide F bs) x.q
  done : z → Pointwise op F → Done op S L bs b x.out

theorem QB.wide {op : Oper α} {S : Meaning α} {bs : Nat} {q : Nat → Buf α} (h : QB op S bs q)
    (F : Nat → (Nat → Nat → α) → Nat → Nat → α) {i : Nat} (hi : i < op.nin) :
    (q i).len = (op.wide F bs).Q * ((op.wide F bs).inp i).size := by
  rw [(h i hi).1]
  show _ = op.Q * bs * (op.inp i).size
  ring

theorem assembleBlk_ok {op : Oper α} {S : Meaning α} {bs : Nat} (h : BlkOK op S bs) (hsep : Separate op)
    (hwt : ∀ i < op.nin, (op.inp i).mode = .weight → (op.inp i).vec ≠ .active) (hpos : 0 < op.cOut)
    (F : Nat → (Nat → Nat → α) → Nat → Nat → α) (junk : Nat → Nat → α) {L : Nat → Nat → α} {s : BSt α}
    (hp : BPre op S bs L s.o) {r : Rstr} (hr : s.rs = some r) (hR : AsmR op bs r) {z : Prop} {b : Nat} (hb : b < nbk op bs)
    {x : Work α} (hx : WInv op S F L bs z b x) :
    ∃ x', assembleBlk op F junk bs b (s.put x) = .ok (s.put x') () ∧ WInv op S F L bs z (b + 1) x' := by
  obtain ⟨q1, eb1, e1, h1, h2, h3, h4⟩ := inputsSkip_ok h hp junk hb (w := s.a.st.impl.eOut) (vs := s.a.st.vecs) hx.q hx.eb
  have e1' : liftO (M.loop op.nin (inputSkip op junk bs b)) (s.put x) = .ok (s.put { x with q := q1, eb := eb1 }) () :=
    liftO_ok (s := s.put x) e1
  have e2 : liftAB (modA (fun s : ASt α => { s with off := 0 })) (s.put { x with q := q1, eb := eb1 }) =
      .ok (s.put { x with q := q1, eb := eb1, off := 0 }) () := rfl
  have hid : IdOK (op.wide F bs) := fun hh => ⟨(h.ident hh).1, (h.ident hh).2.1, (h.ident hh).2.2.1⟩
  have hsep' : Separate (op.wide F bs) := hsep
  have hcl : z → Clean (op.wide F bs) q1 := by
    intro hz
    rcases hx.clean hz with hh | hh
    · refine Or.inl (fun i hi ha y hy => ?_)
      rw [h4 i ha]; exact hh i hi ha y hy
    · exact Or.inr hh
  have hg : GCol (op.wide F bs) (passB op S bs b L) q1 z q1 := by
    refine ⟨fun i hi => h1.wide F hi, ?_, fun _ _ => rfl, hcl⟩
    intro i hi ha y hy
    have hy' : y < op.Q * bs * (op.inp i).size := hy
    have hm : y % bs < bs := Nat.mod_lt _ h.pos
    have hd : y / bs < op.Q * (op.inp i).size :=
      Nat.div_lt_of_lt_mul (by rw [show bs * (op.Q * (op.inp i).size) = op.Q * bs * (op.inp i).size by ring]; exact hy')
    have := h3 i hi ha (y / bs) hd (y % bs) hm
    rw [Nat.div_add_mod'] at this
    exact this
  have hst : (op.wide F bs).cIn * (op.wide F bs).stride = bs * op.Q * op.cIn * op.cOut := by
    show op.cIn * (op.cOut * (op.Q * bs)) = _
    ring
  obtain ⟨⟨q2, a2, p2⟩, e3, c1, c2, c3, c4, c5⟩ := columnsB_ok hid hsep' hpos s.a s.a.st.impl.eOut hg (arr := x.arr) (off := 0)
    (by rw [hst, hx.arr]; omega)
  simp only at c1 c2 c3 c4 c5
  have e3' : liftAB (M.loop op.nin (columnsB (op.wide F bs))) (s.put { x with q := q1, eb := eb1, off := 0 }) =
      .ok (s.put ⟨q2, eb1, a2, p2, x.out⟩) () := liftAB_ok (s := s.put { x with q := q1, eb := eb1, off := 0 }) e3
  obtain ⟨v', e4, g1, g2⟩ := scatter_ok hR hb (u := a2) (v := x.out) hx.out (by rw [c2, hx.arr])
  refine ⟨⟨q2, eb1, a2, p2, v'⟩, ?_, ?_, h2, by rw [c2, hx.arr], g1, c1.clean, ?_⟩
  · unfold assembleBlk
    simp only [M.bind_apply, e1', Out.bind_ok, e2, e3']
    unfold scatterL
    simp only [M.bind_apply, getBS, Out.bind_ok]
    have hrs : (s.put ⟨q2, eb1, a2, p2, x.out⟩).rs = some r := hr
    simp only [hrs]
    simp only [M.bind_apply]
    rw [show (s.put ⟨q2, eb1, a2, p2, x.out⟩).a.arr = a2 from rfl, show (s.put ⟨q2, eb1, a2, p2, x.out⟩).out = x.out from rfl, e4]
    rfl
  · intro i hi
    refine ⟨?_, fun hw y hy j hj => ?_⟩
    · rw [c1.len i hi]
      show op.Q * bs * (op.inp i).size = _
      ring
    · have := c1.same i (hwt i hi hw)
      show (q2 i).val _ = _
      rw [this]
      exact (h1 i hi).2 hw y hy j hj
  · intro hz hF
    have hD := hx.done hz hF
    have hC := c5 hz
    have hkl : ∀ {i c o d}, i < op.nin → (op.inp i).vec = .active → c < (op.inp i).size → o < op.nout →
        (op.out o).vec = .active → d < (op.out o).size →
        (offset op.inp i + c) * op.cOut + (offset op.out o + d) < op.cIn * op.cOut := by
      intro i c o d hi ha hc ho hao hd
      exact enc3_lt (offset_add_lt op.inp hi ha hc) (offset_add_lt op.out ho hao hd)
    have hap : ∀ e i c o d q, op.apos e i c o d q =
        (e * (op.cIn * op.cOut) + ((offset op.inp i + c) * op.cOut + (offset op.out o + d))) * op.Q + q := by
      intro e i c o d q
      unfold Oper.apos; ring
    refine ⟨?_, ?_⟩
    · intro e he hlt i hi ha c hc o ho hao d hd q hq
      rw [hap, g2 e _ q (hkl hi ha hc ho hao hd) hq he]
      rw [Nat.add_mul, Nat.one_mul] at hlt
      by_cases hbe : b * bs ≤ e
      · rw [if_pos ⟨hbe, hlt⟩, hD.rest e he hbe _ (hkl hi ha hc ho hao hd) q hq, zero_add]
        have hj : e - b * bs < bs := by omega
        have := hC i hi ha c hc o ho hao d hd (q * bs + (e - b * bs)) (by
          show _ < op.Q * bs
          have : (q + 1) * bs ≤ op.Q * bs := Nat.mul_le_mul_right _ hq
          rw [Nat.add_mul, Nat.one_mul] at this
          omega)
        have hv := eval_lane (S := S) (b := b) (L := L) hF hj i c o d hq
        rw [show min (b * bs + (e - b * bs)) (op.ne - 1) = e by omega] at hv
        rw [← hv]
        refine Eq.trans ?_ this
        congr 1
        show _ = 0 + (offset op.inp i + c) * (op.cOut * (op.Q * bs)) + (offset op.out o + d) * (op.Q * bs) + (q * bs + (e - b * bs))
        ring
      · rw [if_neg (by omega), add_zero, ← hap]
        exact hD.cols e he (by omega) i hi ha c hc o ho hao d hd q hq
    · intro e he hge k hk n hn
      rw [Nat.add_mul, Nat.one_mul] at hge
      rw [g2 e k n hk hn he, if_neg (by omega), add_zero]
      exact hD.rest e he (by omega) k hk n hn

theorem assembleBlks_ok {op : Oper α} {S : Meaning α} {bs : Nat} (h : BlkOK op S bs) (hsep : Separate op)
    (hwt : ∀ i < op.nin, (op.inp i).mode = .weight → (op.inp i).vec ≠ .active) (hpos : 0 < op.cOut)
    (F : Nat → (Nat → Nat → α) → Nat → Nat → α) (junk : Nat → Nat → α) {L : Nat → Nat → α} {s : BSt α}
    (hp : BPre op S bs L s.o) {r : Rstr} (hr : s.rs = some r) (hR : AsmR op bs r) {z : Prop}
    {x : Work α} (hx : WInv op S F L bs z 0 x) :
    ∃ x', M.loop (nblk op.ne bs) (assembleBlk op F junk bs) (s.put x) = .ok (s.put x') () ∧
      WInv op S F L bs z (nbk op bs) x' ∧ (z → Pointwise op F → Columns op S L x'.out) := by
  rw [nblk_eq op h.pos]
  obtain ⟨x', e, hx'⟩ := loop_ok (n := nbk op bs) (body := assembleBlk op F junk bs) (fun x => s.put x)
    (fun b x => WInv op S F L bs z b x) hx (fun b hb x hx => assembleBlk_ok h hsep hwt hpos F junk hp hr hR hb hx)
  refine ⟨x', e, hx', fun hz hF => ⟨hx'.out, ?_⟩⟩
  intro e he
  have := (Restriction.nb_bounds (ne := op.ne) h.pos).1
  exact (hx'.done hz hF).cols e he (by
    show e < nbk op bs * bs
    have h2 : nbk op bs = (op.ne + bs - 1) / bs := rfl
    rw [h2]; omega)

end Operator
end Verif
