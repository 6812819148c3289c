import Verif.Operator.OptRstr
import Verif.Operator.OptSpec

/-!
# One block of elements (helper lemmas)
-/

set_option linter.unusedSectionVars false

namespace Verif
namespace Operator

open Finset
open Restriction (RData Made Rstr Rep laneEnd)
open Basis (Bas EMode)

variable {α : Type} [CommRing α]

/-! ## Operators with blocks -/

/-- The restriction of a field has blocks of `bs` elements and the data `S.dat`. -/
def BRstr (op : Oper α) (S : Meaning α) (bs : Nat) (a : OField α) : Prop :=
  ∃ r, a.rid = some r ∧ Rep (op.rstrs r) .plain (S.dat a) ∧ (op.rstrs r).blockSize = bs ∧ (S.dat a).ne = op.ne

/-- Fields of an operator with the copies of the restrictions that have blocks. -/
structure BlkOK (op : Oper α) (S : Meaning α) (bs : Nat) : Prop where
  pos : 0 < bs
  inW : ∀ i < op.nin, (op.inp i).mode = .weight → (op.inp i).size = 1 ∧
    ∃ b, (op.inp i).basis = some b ∧ b.Q = op.Q ∧ WeightN b (S.w i) bs
  inR : ∀ i < op.nin, (op.inp i).mode ≠ .weight → BRstr op S bs (op.inp i)
  inN : ∀ i < op.nin, (op.inp i).mode = .none → (S.dat (op.inp i)).es = op.Q ∧ (op.inp i).size = (S.dat (op.inp i)).nc
  inB : ∀ i < op.nin, isBasisMode (op.inp i).mode = true →
    ∃ b, Fits op S (op.inp i) b ∧ Basis.MulBy b (op.inp i).mode (S.mIn i)
  outW : ∀ o < op.nout, (op.out o).mode ≠ .weight
  outR : ∀ o < op.nout, BRstr op S bs (op.out o)
  outN : ∀ o < op.nout, (op.out o).mode = .none → (S.dat (op.out o)).es = op.Q ∧ (op.out o).size = (S.dat (op.out o)).nc
  outB : ∀ o < op.nout, isBasisMode (op.out o).mode = true →
    ∃ b, Fits op S (op.out o) b ∧ Basis.MulByT b (op.out o).mode (S.mOut o) ∧
      ((∃ j < o, (op.out j).same (op.out o) = true) → Basis.AddByT b (op.out o).mode (S.mOut o))
  shareIn : ∀ i < op.nin, (op.inp i).mode ≠ .weight → (op.inp (first op i)).mode ≠ .weight
  shareOut : ∀ j o, j < o → o < op.nout → (op.out j).same (op.out o) = true → isBasisMode (op.out o).mode = true
  ident : op.isId = true → op.nin = 1 ∧ op.nout = 1 ∧ (op.out 0).size = (op.inp 0).size ∧
    ((op.inp 0).mode = .none → (op.out 0).mode = .none → (op.inp 0).vec = .active ∧ (op.out 0).vec = .active) ∧
    ((op.inp 0).mode = .weight → (op.out 0).mode ≠ .none)

/-- Number of blocks. -/
def nbk (op : Oper α) (bs : Nat) : Nat := (op.ne + bs - 1) / bs

theorem nblk_eq (op : Oper α) {bs : Nat} (h : 0 < bs) : nblk op.ne bs = nbk op bs := by
  unfold nblk nbk
  have h1 := Nat.div_add_mod op.ne bs
  have h2 := Nat.mod_lt op.ne h
  generalize op.ne / bs = d at *
  by_cases h0 : op.ne % bs = 0
  · rw [if_pos h0, ← h1, h0, Nat.add_zero]
    symm
    rw [Nat.mul_comm bs d]
    have : d * bs + bs - 1 = d * bs + (bs - 1) := by omega
    rw [Nat.add_zero, this, Nat.mul_comm, Nat.mul_add_div h, Nat.div_eq_of_lt (by omega), Nat.add_zero]
  · rw [if_neg h0]
    symm
    have e : op.ne + bs - 1 = bs * (d + 1) + (op.ne % bs - 1) := by rw [Nat.mul_add, Nat.mul_one]; omega
    rw [e, Nat.mul_add_div h, Nat.div_eq_of_lt (by omega)]

theorem BRstr.nb {op : Oper α} {S : Meaning α} {bs : Nat} {a : OField α} {r : Nat} (h : BRstr op S bs a) (hr : a.rid = some r) :
    (op.rstrs r).numBlock = nbk op bs ∧ Rep (op.rstrs r) .plain (S.dat a) ∧ (op.rstrs r).blockSize = bs ∧ (S.dat a).ne = op.ne := by
  obtain ⟨r', h1, h2, h3, h4⟩ := h
  rw [hr] at h1; cases h1
  refine ⟨?_, h2, h3, h4⟩
  rw [h2.nb, h3, h4]; rfl

theorem BRstr.sizes {op : Oper α} {S : Meaning α} {bs : Nat} {a : OField α} (h : BRstr op S bs a) :
    elemSizeOf op a = (S.dat a).es ∧ eSizeOf op a = nbk op bs * (bs * ((S.dat a).es * (S.dat a).nc)) := by
  obtain ⟨r, h1, _⟩ := id h
  obtain ⟨g1, g2, g3, g4⟩ := h.nb h1
  unfold elemSizeOf eSizeOf
  rw [h1]
  refine ⟨g2.es, ?_⟩
  show (op.rstrs r).eSize = _
  rw [g2.esz, g1, g3]; ring

/-- `b` holds `E u` in the layout with blocks; the last block is padded with the last element. -/
def GathB (op : Oper α) (S : Meaning α) (bs : Nat) (i : Nat) (b : Buf α) (u : Nat → α) : Prop :=
  ∀ B < nbk op bs, ∀ k < (S.dat (op.inp i)).nc, ∀ n < (S.dat (op.inp i)).es, ∀ j < bs,
    b.val (eIdx (S.dat (op.inp i)).nc (S.dat (op.inp i)).es bs B k n j) =
      (S.dat (op.inp i)).row u (min (B * bs + j) (op.ne - 1)) k n

theorem BlkOK.gctx {op : Oper α} {S : Meaning α} {bs : Nat} (h : BlkOK op S bs) : GCtx op (GathB op S bs) := by
  refine ⟨fun i hi hw => ?_, h.shareIn, ?_, ?_⟩
  · obtain ⟨r, h1, _⟩ := h.inR i hi hw
    exact ⟨r, h1⟩
  · intro i hi hw r hr u v hu hv
    obtain ⟨g1, g2, g3, g4⟩ := (h.inR i hi hw).nb hr
    have hE : eSizeOf op (op.inp i) = (op.rstrs r).eSize := by unfold eSizeOf; rw [hr]
    obtain ⟨v', e1, e2, _, e3, _⟩ := g2.apply_nt (u := u) (v := v) hu (by omega)
    refine ⟨v', e1, e2, ?_⟩
    intro B hB k hk n hn j hj
    have := e3 B (by omega) k hk n hn j (by omega)
    rw [g3, g4] at this
    exact this
  · intro i j b u hs hg
    unfold GathB at hg ⊢
    rw [dat_same hs] at hg
    exact hg

/-! ## States -/

/-- The state `s` with other quadrature data, E-vectors of a block, and vectors. -/
def OSt.put (s : OSt α) (q w eb : Nat → Buf α) (vs : Nat → LVec α) : OSt α :=
  { s with base := { s.base with impl := { s.base.impl with qIn := q, eOut := w }, vecs := vs }, eBlk := eb }

/-- Quadrature data of a block. -/
def QB (op : Oper α) (S : Meaning α) (bs : Nat) (q : Nat → Buf α) : Prop :=
  ∀ i < op.nin, (q i).len = op.Q * (op.inp i).size * bs ∧
    ((op.inp i).mode = .weight → ∀ x < op.Q, ∀ j < bs, (q i).val (x * bs + j) = S.w i x)

/-- Length of the E-vector of a block. -/
def blen (S : Meaning α) (bs : Nat) (a : OField α) : Nat := bs * (S.dat a).es * (S.dat a).nc

/-- Lengths of the E-vectors of a block of the outputs. -/
def WB (op : Oper α) (S : Meaning α) (bs : Nat) (w : Nat → Buf α) : Prop := ∀ o < op.nout, (w o).len = blen S bs (op.out o)

/-- Lengths of the E-vectors of a block of the inputs. -/
def EB (op : Oper α) (S : Meaning α) (bs : Nat) (e : Nat → Buf α) : Prop :=
  ∀ i < op.nin, (op.inp i).mode ≠ .weight → (e i).len = blen S bs (op.inp i)

/-- What holds when the blocks are visited: `L` are the contents of the vectors when the application was started. -/
structure BPre (op : Oper α) (S : Meaning α) (bs : Nat) (L : Nat → Nat → α) (s : OSt α) : Prop where
  full : ∀ i < op.nin, (op.inp i).mode ≠ .weight → s.base.impl.it.full i = some (first op i)
  ev : ∀ i < op.nin, isBasisMode (op.inp i).mode = true → s.base.impl.it.ev i = some (elen S (op.inp i))
  ofull : ∀ o < op.nout, s.base.impl.ot.full o = some (last op o)
  oskip : ∀ o < op.nout, (s.base.impl.ot.skip o = true ↔ o < last op o)
  oadd : ∀ o < op.nout, (s.base.impl.ot.add o = true ↔ ∃ i < o, (op.out i).same (op.out o) = true)
  len : ∀ i < op.nin, (op.inp i).mode ≠ .weight → (s.base.impl.eIn (first op i)).len = eSizeOf op (op.inp i)
  gath : ∀ i < op.nin, (op.inp i).mode ≠ .weight → (op.inp i).vec ≠ .active → ∀ inv,
    GathB op S bs i (s.base.impl.eIn (first op i)) (cont L ((op.inp i).vec.ptr inv))

/-! ## Inputs -/

/-- Data of input `i` on all lanes of block `b`. -/
def LaneIn (op : Oper α) (S : Meaning α) (bs b : Nat) (L : Nat → Nat → α) (inv : VPtr) (i : Nat) (q : Buf α) : Prop :=
  ∀ x < op.Q * (op.inp i).size, ∀ j < bs, q.val (x * bs + j) = S.inVal op L inv (min (b * bs + j) (op.ne - 1)) i x

/-- Basis action on a block that holds the values `row`. -/
theorem blockBasis_ok {op : Oper α} {S : Meaning α} {bs : Nat} (h : BlkOK op S bs) {i : Nat} (hi : i < op.nin)
    (hm : isBasisMode (op.inp i).mode = true) (junk : Nat → Nat → α) (s : OSt α) {q w eb : Nat → Buf α}
    {vs : Nat → LVec α} (hq : QB op S bs q) {u : Buf α} (hu : u.len = blen S bs (op.inp i)) :
    ∃ v, blockBasis op junk bs i u (s.put q w eb vs) = .ok (s.put (Function.update q i v) w eb vs) () ∧
      v.len = op.Q * (op.inp i).size * bs ∧
      ∀ b (L : Nat → Nat → α) inv, (∀ k < (S.dat (op.inp i)).nc, ∀ n < (S.dat (op.inp i)).es, ∀ j < bs,
          u.val (eIdx (S.dat (op.inp i)).nc (S.dat (op.inp i)).es bs 0 k n j) =
            (S.dat (op.inp i)).row (cont L ((op.inp i).vec.ptr inv)) (min (b * bs + j) (op.ne - 1)) k n) →
        LaneIn op S bs b L inv i v := by
  obtain ⟨bb, ⟨f1, f2, f3, f4, f5⟩, hmul⟩ := h.inB i hi hm
  obtain ⟨v', e1, e2, e3, _⟩ := hmul junk bs u (q i)
    (by rw [hu, f2, f3]; unfold blen; exact le_of_eq (by ring))
    (by rw [(hq i hi).1, f4, f3, f5]; exact le_of_eq (by ring))
  refine ⟨v', ?_, by rw [e2, (hq i hi).1], ?_⟩
  · unfold blockBasis
    simp only [M.bind_apply, getOB, Out.bind_ok, f1, optr, M.pure_apply, OSt.put, e1, M.lift_ok, onB, setQ, modI]
  · intro b L inv hrow x hx j hj
    have hQ : 0 < op.Q := Nat.pos_of_ne_zero (by rintro h0; rw [h0] at hx; simp at hx)
    have hnc : 0 < (S.dat (op.inp i)).nc := Nat.pos_of_ne_zero (by rintro h0; rw [f5, h0] at hx; simp at hx)
    have hx1 : x / op.Q < (S.dat (op.inp i)).nc * bb.qComp (op.inp i).mode := by
      rw [← f5]; exact Nat.div_lt_of_lt_mul hx
    have hc : x / op.Q / (S.dat (op.inp i)).nc < bb.qComp (op.inp i).mode := Nat.div_lt_of_lt_mul hx1
    have hk : x / op.Q % (S.dat (op.inp i)).nc < (S.dat (op.inp i)).nc := Nat.mod_lt _ hnc
    have := e3 _ hc _ (by rw [f3]; exact hk) (x % op.Q) (by rw [f4]; exact Nat.mod_lt _ hQ) j hj
    have hpos : Basis.quadPos bb.nc bb.Q bs (x / op.Q / (S.dat (op.inp i)).nc) (x / op.Q % (S.dat (op.inp i)).nc)
        (x % op.Q) j = x * bs + j := by
      unfold Basis.quadPos
      rw [f3, f4, Nat.div_add_mod', Nat.div_add_mod']
    rw [hpos] at this
    rw [this, inVal_basis hm]
    unfold Basis.rowTimes
    rw [f2, f4]
    refine sum_congr rfl (fun n hn => ?_)
    rw [← hrow _ hk n (mem_range.1 hn) j hj]
    congr 2
    unfold Basis.nodePos eIdx
    rw [Nat.zero_mul, Nat.zero_add]

/-- Values of a block without basis. -/
theorem lane_none {op : Oper α} {S : Meaning α} {bs : Nat} (h : BlkOK op S bs) {i : Nat} (hi : i < op.nin)
    (hm : (op.inp i).mode = .none) {u : Buf α} {b : Nat} {L : Nat → Nat → α} {inv : VPtr}
    (hrow : ∀ k < (S.dat (op.inp i)).nc, ∀ n < (S.dat (op.inp i)).es, ∀ j < bs,
          u.val (eIdx (S.dat (op.inp i)).nc (S.dat (op.inp i)).es bs 0 k n j) =
            (S.dat (op.inp i)).row (cont L ((op.inp i).vec.ptr inv)) (min (b * bs + j) (op.ne - 1)) k n) :
    LaneIn op S bs b L inv i u := by
  intro x hx j hj
  obtain ⟨hes, hsz⟩ := h.inN i hi hm
  have hQ : 0 < op.Q := Nat.pos_of_ne_zero (by rintro h0; rw [h0] at hx; simp at hx)
  have hk : x / op.Q < (S.dat (op.inp i)).nc := by
    rw [← hsz]; exact Nat.div_lt_of_lt_mul hx
  have hg := hrow (x / op.Q) hk (x % op.Q) (by rw [hes]; exact Nat.mod_lt _ hQ) j hj
  unfold Meaning.inVal
  simp only [hm]
  rw [← hg]
  congr 1
  unfold eIdx
  rw [hes, Nat.zero_mul, Nat.zero_add, Nat.div_add_mod']

theorem blen_none {op : Oper α} {S : Meaning α} {bs : Nat} {a : OField α} (h1 : (S.dat a).es = op.Q)
    (h2 : a.size = (S.dat a).nc) : blen S bs a = op.Q * a.size * bs := by
  unfold blen; rw [h1, h2]; ring

/-- The active input `i` fits the restriction exactly. -/
def ActReady (op : Oper α) (inv : VPtr) (vs : Nat → LVec α) (i : Nat) : Prop :=
  (op.inp i).mode ≠ .weight → (op.inp i).vec = .active → ∃ r v, (op.inp i).rid = some r ∧ inv = .vec v ∧
    (vs v).valid = true ∧ (op.rstrs r).lSize = (vs v).buf.len

theorem block_long {r : Rstr} {b : Nat} {u v : Buf α} (h : ¬ r.lSize = u.len) :
    Restriction.applyBlock r b .noTranspose u v = .err .dimension := by
  simp only [Restriction.applyBlock]
  rw [Res.check_false h]
  rfl

theorem block_long_t {r : Rstr} {b : Nat} {u v : Buf α} (h : ¬ r.lSize = v.len) :
    ∃ e, Restriction.applyBlock r b .transpose u v = .err e := by
  simp only [Restriction.applyBlock]
  by_cases h1 : (r.blockSize : Int) * r.elemSize * r.numComp = u.len
  · rw [Res.check_true h1, Res.bind_ok, Res.check_false h]; exact ⟨_, rfl⟩
  · rw [Res.check_false h1]; exact ⟨_, rfl⟩

/-- Restriction of one block of an active input. -/
theorem blockIn_wp {op : Oper α} {S : Meaning α} {bs : Nat} (h : BlkOK op S bs) {s : OSt α}
    (ht : ∀ i < op.nin, (op.inp i).mode ≠ .weight → s.base.impl.it.full i = some (first op i)) {i : Nat} (hi : i < op.nin)
    (hw : (op.inp i).mode ≠ .weight) (ha : (op.inp i).vec = .active) {b : Nat} (hb : b < nbk op bs) {inv : VPtr}
    {q w eb : Nat → Buf α} {vs : Nat → LVec α} (heb : EB op S bs eb) {R : Prop} (hR : R → ActReady op inv vs i) :
    M.wp R (blockIn op inv b i) (s.put q w eb vs) (fun s' _ => ActReady op inv vs i ∧ ∃ u : Buf α,
      s' = s.put q w (Function.update eb (first op i) u) vs ∧ u.len = blen S bs (op.inp i) ∧
      ∀ k < (S.dat (op.inp i)).nc, ∀ n < (S.dat (op.inp i)).es, ∀ j < bs,
          u.val (eIdx (S.dat (op.inp i)).nc (S.dat (op.inp i)).es bs 0 k n j) =
            (S.dat (op.inp i)).row (cont (fun v => (vs v).buf.val) inv) (min (b * bs + j) (op.ne - 1)) k n)
      (fun s' _ => ¬ R ∧ s' = s.put q w eb vs) := by
  obtain ⟨r, hr, _⟩ := h.inR i hi hw
  obtain ⟨g1, g2, g3, g4⟩ := (h.inR i hi hw).nb hr
  have hfi : first op i < op.nin := by have := first_le op i; omega
  have hel : (eb (first op i)).len = (op.rstrs r).blockSize * (S.dat (op.inp i)).es * (S.dat (op.inp i)).nc := by
    rw [heb _ hfi (h.shareIn i hi hw), g3]
    unfold blen; rw [dat_same (first_same op i)]
  have hrun : blockIn op inv b i (s.put q w eb vs) = (onB (readVec inv) (s.put q w eb vs)).bind (fun s' u =>
      (M.lift (Restriction.applyBlock (op.rstrs r) b .noTranspose u (eb (first op i))) s').bind (fun s' v =>
        setBlk (first op i) v s')) := by
    unfold blockIn
    simp only [M.bind_apply, getOB, Out.bind_ok, hr, optr, M.pure_apply, OSt.put, ht i hi hw]
  have hfail : ¬ ActReady op inv vs i → M.wp R (blockIn op inv b i) (s.put q w eb vs) (fun s' _ => ActReady op inv vs i ∧ ∃ u : Buf α,
      s' = s.put q w (Function.update eb (first op i) u) vs ∧ u.len = blen S bs (op.inp i) ∧
      ∀ k < (S.dat (op.inp i)).nc, ∀ n < (S.dat (op.inp i)).es, ∀ j < bs,
          u.val (eIdx (S.dat (op.inp i)).nc (S.dat (op.inp i)).es bs 0 k n j) =
            (S.dat (op.inp i)).row (cont (fun v => (vs v).buf.val) inv) (min (b * bs + j) (op.ne - 1)) k n)
      (fun s' _ => ¬ R ∧ s' = s.put q w eb vs) := by
    intro hn
    have hnR : ¬ R := fun hr => hn (hR hr)
    match inv with
    | .null => exact M.wp_of_eq_ub (by rw [hrun]; rfl) hnR
    | .none => exact M.wp_of_eq_err (a := .dimension) (by rw [hrun]; rfl) ⟨hnR, rfl⟩
    | .vec v =>
      by_cases hval : (vs v).valid = true
      · have hlen : ¬ (op.rstrs r).lSize = (vs v).buf.len := fun hl => hn (fun _ _ => ⟨r, v, hr, rfl, hval, hl⟩)
        refine M.wp_of_eq_err (a := .dimension) (s' := s.put q w eb vs) ?_ ⟨hnR, rfl⟩
        rw [hrun]
        simp only [onB, readVec, OSt.put, hval, if_true, Out.bind_ok, block_long hlen, M.lift_err, Out.bind_err]
      · refine M.wp_of_eq_err (a := .backend) (s' := s.put q w eb vs) ?_ ⟨hnR, rfl⟩
        rw [hrun]
        simp only [onB, readVec, OSt.put, hval]
        simp
  by_cases hrdy : ActReady op inv vs i
  swap
  · exact hfail hrdy
  obtain ⟨r', v, h1, h2, h3, h4⟩ := hrdy hw ha
  rw [hr] at h1; cases h1
  subst h2
  obtain ⟨u, e1, e2, e3⟩ := g2.block_nt (b := b) (by omega) (u := (vs v).buf) (v := eb (first op i)) h4 hel
  refine M.wp_of_eq_ok (s' := s.put q w (Function.update eb (first op i) u) vs) (a := ()) ?_ ⟨hrdy, u, rfl, ?_, ?_⟩
  · rw [hrun]
    simp only [onB, readVec, OSt.put, h3, if_true, Out.bind_ok, e1, M.lift_ok, setBlk]
  · rw [e2, hel, g3]; rfl
  · intro k hk n hn j hj
    have := e3 k hk n hn j (by omega)
    rw [g3, g4] at this
    exact this

theorem lane_weight {op : Oper α} {S : Meaning α} {bs : Nat} (h : BlkOK op S bs) {i : Nat} (hi : i < op.nin)
    (hm : (op.inp i).mode = .weight) {q : Nat → Buf α} (hq : QB op S bs q) {b : Nat} {L : Nat → Nat → α} {inv : VPtr} :
    LaneIn op S bs b L inv i (q i) := by
  intro x hx j hj
  rw [(h.inW i hi hm).1, Nat.mul_one] at hx
  rw [(hq i hi).2 hm x hx j hj]
  unfold Meaning.inVal
  simp only [hm]

/-- Data of one input on a block. -/
theorem inputBlock1_wp {op : Oper α} {S : Meaning α} {bs : Nat} (h : BlkOK op S bs) {L : Nat → Nat → α} {s : OSt α}
    (hp : BPre op S bs L s) (junk : Nat → Nat → α) {i : Nat} (hi : i < op.nin) {b : Nat} (hb : b < nbk op bs) {inv : VPtr}
    {q w eb : Nat → Buf α} {vs : Nat → LVec α} (hq : QB op S bs q) (heb : EB op S bs eb) {R : Prop}
    (hR : R → ActReady op inv vs i) :
    M.wp R (inputBlock1 op junk bs inv b i) (s.put q w eb vs) (fun s' _ => ActReady op inv vs i ∧ ∃ (v : Buf α) (eb' : Nat → Buf α),
      s' = s.put (Function.update q i v) w eb' vs ∧ EB op S bs eb' ∧ v.len = op.Q * (op.inp i).size * bs ∧
      (((op.inp i).vec = .active → (op.inp i).mode ≠ .weight → cont (fun v => (vs v).buf.val) inv = cont L inv) → LaneIn op S bs b L inv i v))
      (fun s' _ => ¬ R ∧ s' = s.put q w eb vs) := by
  unfold inputBlock1
  by_cases hw : (op.inp i).mode = .weight
  · rw [if_pos hw, M.wp_pure]
    refine ⟨fun hh => absurd hw hh, q i, eb, ?_, heb, (hq i hi).1, fun _ => lane_weight h hi hw hq⟩
    rw [Function.update_eq_self]
  rw [if_neg hw]
  obtain ⟨hes, hesz⟩ := (h.inR i hi hw).sizes
  by_cases ha : (op.inp i).vec = .active
  · rw [if_pos ha, M.wp_bind]
    refine M.wp_mono (blockIn_wp h hp.full hi hw ha hb heb hR) ?_ (fun _ _ hh => hh)
    rintro s' _ ⟨hrdy, u, rfl, hu, hval⟩
    have heb' : EB op S bs (Function.update eb (first op i) u) := by
      intro i' hi' hw'
      by_cases hii : i' = first op i
      · rw [hii, Function.update_self, hu]; unfold blen; rw [dat_same (first_same op i)]
      · rw [Function.update_of_ne hii]; exact heb i' hi' hw'
    have hval' : ((op.inp i).vec = .active → (op.inp i).mode ≠ .weight → cont (fun v => (vs v).buf.val) inv = cont L inv) →
        ∀ k < (S.dat (op.inp i)).nc, ∀ n < (S.dat (op.inp i)).es, ∀ j < bs,
          u.val (eIdx (S.dat (op.inp i)).nc (S.dat (op.inp i)).es bs 0 k n j) =
            (S.dat (op.inp i)).row (cont L ((op.inp i).vec.ptr inv)) (min (b * bs + j) (op.ne - 1)) k n := by
      intro hc k hk n hn j hj
      rw [hval k hk n hn j hj, ha, hc ha hw]; rfl
    unfold activeData
    rw [M.wp_bind]
    refine M.wp_of_eq_ok (s' := s.put q w (Function.update eb (first op i) u) vs) (a := _) rfl ?_
    rw [M.wp_bind]
    refine M.wp_of_eq_ok (s' := s.put q w (Function.update eb (first op i) u) vs) (a := first op i) ?_ ?_
    · show optr (s.base.impl.it.full i) _ = _
      rw [hp.full i hi hw]; rfl
    have hsel : (s.put q w (Function.update eb (first op i) u) vs).eBlk (first op i) = u := Function.update_self _ _ _
    rw [hsel]
    by_cases hm : (op.inp i).mode = .none
    · obtain ⟨n1, n2⟩ := h.inN i hi hm
      rw [if_pos hm]
      have hsl : slice u 0 (op.Q * (op.inp i).size * bs) = .ok ⟨op.Q * (op.inp i).size * bs, fun x => u.val (0 + x)⟩ := by
        unfold slice
        rw [if_pos]
        rw [hu, blen_none n1 n2]; omega
      rw [hsl]
      refine M.wp_of_eq_ok (s' := s.put (Function.update q i ⟨op.Q * (op.inp i).size * bs, fun x => u.val (0 + x)⟩) w
        (Function.update eb (first op i) u) vs) (a := ()) rfl ?_
      refine ⟨hrdy, _, _, rfl, heb', rfl, fun hc => ?_⟩
      have := lane_none h hi hm (hval' hc)
      intro x hx j hj
      rw [← this x hx j hj]
      show u.val (0 + _) = _
      rw [Nat.zero_add]
    · rw [if_neg hm]
      have hbm : isBasisMode (op.inp i).mode = true := by
        rcases mode_cases (op.inp i).mode with h1 | h1 | h1
        · exact absurd h1 hw
        · exact absurd h1 hm
        · exact h1
      obtain ⟨v, e1, e2, e3⟩ := blockBasis_ok h hi hbm junk s (w := w) (eb := Function.update eb (first op i) u) (vs := vs) hq hu
      exact M.wp_of_eq_ok e1 ⟨hrdy, v, _, rfl, heb', e2, fun hc => e3 b L inv (hval' hc)⟩
  rw [if_neg ha]
  have hrdy : ActReady op inv vs i := fun _ hh => absurd hh ha
  have hg := hp.gath i hi hw ha inv b hb
  have hlen := hp.len i hi hw
  rw [hesz] at hlen
  have hsl : ∀ off, off = b * (bs * ((S.dat (op.inp i)).es * (S.dat (op.inp i)).nc)) →
      ∀ n, n = bs * ((S.dat (op.inp i)).es * (S.dat (op.inp i)).nc) →
      slice (s.base.impl.eIn (first op i)) off n = .ok ⟨n, fun x => (s.base.impl.eIn (first op i)).val (off + x)⟩ := by
    rintro off rfl n rfl
    unfold slice
    rw [if_pos]
    rw [hlen]
    exact slot_le hb
  by_cases hm : (op.inp i).mode = .none
  · rw [if_pos hm]
    obtain ⟨n1, n2⟩ := h.inN i hi hm
    unfold passiveDirect
    have ho : b * bs * op.Q * (op.inp i).size = b * (bs * ((S.dat (op.inp i)).es * (S.dat (op.inp i)).nc)) := by
      rw [n1, n2]; ring
    have hs := hsl _ ho (op.Q * (op.inp i).size * bs) (by rw [n1, n2]; ring)
    refine M.wp_of_eq_ok (s' := s.put (Function.update q i
      ⟨op.Q * (op.inp i).size * bs, fun x => (s.base.impl.eIn (first op i)).val (b * bs * op.Q * (op.inp i).size + x)⟩) w eb vs)
      (a := ()) ?_ ⟨hrdy, _, _, rfl, heb, ?_, fun _ => ?_⟩
    · simp only [M.bind_apply, getOB, Out.bind_ok, OSt.put, hp.full i hi hw, optr, M.pure_apply, hs, M.lift_ok, onB, setQ, modI]
    · rfl
    · refine lane_none h hi hm ?_
      intro k hk n hn j hj
      rw [← hg k hk n hn j hj, Restriction.eIdx_shift _ _ _ b]
      show (s.base.impl.eIn (first op i)).val _ = _
      congr 1
      rw [ho]; ring
  · rw [if_neg hm]
    have hbm : isBasisMode (op.inp i).mode = true := by
      rcases mode_cases (op.inp i).mode with h1 | h1 | h1
      · exact absurd h1 hw
      · exact absurd h1 hm
      · exact h1
    obtain ⟨bb, ⟨f1, f2, f3, f4, f5⟩, _⟩ := h.inB i hi hbm
    have ho : b * bs * elemSizeOf op (op.inp i) * bb.nc = b * (bs * ((S.dat (op.inp i)).es * (S.dat (op.inp i)).nc)) := by
      rw [hes, f3]; ring
    have hs := hsl _ ho (elen S (op.inp i) * bs) (by unfold elen; ring)
    obtain ⟨v, e1, e2, e3⟩ := blockBasis_ok h hi hbm junk s (w := w) (eb := eb) (vs := vs) hq
      (u := ⟨elen S (op.inp i) * bs, fun x => (s.base.impl.eIn (first op i)).val (b * bs * elemSizeOf op (op.inp i) * bb.nc + x)⟩)
      (by show elen S (op.inp i) * bs = _; unfold elen blen; ring)
    refine M.wp_of_eq_ok (s' := s.put (Function.update q i v) w eb vs) (a := ()) ?_ ⟨hrdy, v, eb, rfl, heb, e2, fun _ => e3 b L inv ?_⟩
    · unfold passiveBasis
      have e1' := e1
      simp only [OSt.put] at e1' ⊢
      simp only [M.bind_apply, getOB, Out.bind_ok, hp.full i hi hw, hp.ev i hi hbm, f1, optr, M.pure_apply, hs, M.lift_ok]
      exact e1'
    · intro k hk n hn j hj
      rw [← hg k hk n hn j hj, Restriction.eIdx_shift _ _ _ b]
      show (s.base.impl.eIn (first op i)).val _ = _
      congr 1
      rw [ho]; ring

/-- Data of all inputs on a block. -/
theorem inputsBlk_wp {op : Oper α} {S : Meaning α} {bs : Nat} (h : BlkOK op S bs) {L : Nat → Nat → α} {s : OSt α}
    (hp : BPre op S bs L s) (junk : Nat → Nat → α) {b : Nat} (hb : b < nbk op bs) {inv : VPtr}
    {q w eb : Nat → Buf α} {vs : Nat → LVec α} (hq : QB op S bs q) (heb : EB op S bs eb) {R : Prop}
    (hR : R → ∀ i < op.nin, ActReady op inv vs i) :
    M.wp R (M.loop op.nin (inputBlock1 op junk bs inv b)) (s.put q w eb vs) (fun s' _ => (∀ i < op.nin, ActReady op inv vs i) ∧
      ∃ q' eb', s' = s.put q' w eb' vs ∧ EB op S bs eb' ∧ QB op S bs q' ∧
      ((∀ i < op.nin, (op.inp i).vec = .active → (op.inp i).mode ≠ .weight → cont (fun v => (vs v).buf.val) inv = cont L inv) →
        ∀ i < op.nin, LaneIn op S bs b L inv i (q' i)))
      (fun s' _ => ¬ R ∧ ∃ q' eb', s' = s.put q' w eb' vs ∧ EB op S bs eb' ∧ QB op S bs q') := by
  refine M.wp_loop (fun a s' => (∀ i < a, ActReady op inv vs i) ∧ ∃ q' eb', s' = s.put q' w eb' vs ∧ EB op S bs eb' ∧ QB op S bs q' ∧
      ((∀ i < op.nin, (op.inp i).vec = .active → (op.inp i).mode ≠ .weight → cont (fun v => (vs v).buf.val) inv = cont L inv) →
        ∀ i < a, LaneIn op S bs b L inv i (q' i)))
    ⟨fun i hi => absurd hi (by omega), q, eb, rfl, heb, hq, fun _ i hi => absurd hi (by omega)⟩ ?_
  rintro i hi s' ⟨a1, q1, eb1, rfl, a2, a3, a4⟩
  refine M.wp_mono (inputBlock1_wp h hp junk hi hb a3 a2 (R := R) (fun r => hR r i hi)) ?_ ?_
  · rintro s' _ ⟨b1, v, eb2, rfl, b2, b3, b4⟩
    refine ⟨?_, Function.update q1 i v, eb2, rfl, b2, ?_, ?_⟩
    · intro i' hi'
      by_cases hii : i' = i
      · rw [hii]; exact b1
      · exact a1 i' (by omega)
    · intro i' hi'
      by_cases hii : i' = i
      · subst hii
        rw [Function.update_self]
        refine ⟨b3, fun hw x hx j hj => ?_⟩
        have := b4 (fun _ hn => absurd hw hn) x (by rw [(h.inW i' hi' hw).1]; omega) j hj
        rw [this]
        unfold Meaning.inVal
        simp only [hw]
      · rw [Function.update_of_ne hii]; exact a3 i' hi'
    · intro hc i' hi'
      by_cases hii : i' = i
      · subst hii
        rw [Function.update_self]
        exact b4 (hc i' hi)
      · rw [Function.update_of_ne hii]; exact a4 hc i' (by omega)
  · rintro s' _ ⟨b1, rfl⟩
    exact ⟨b1, q1, eb1, rfl, a2, a3⟩

/-! ## The user function -/

theorem evalBlk_eq {op : Oper α} {S : Meaning α} {bs : Nat} (h : BlkOK op S bs)
    {F : Nat → (Nat → Nat → α) → Nat → Nat → α} (hF : Pointwise op F) {L : Nat → Nat → α} {inv : VPtr} {b : Nat}
    {q : Nat → Buf α} (hv : ∀ i < op.nin, LaneIn op S bs b L inv i (q i))
    {o x j : Nat} (ho : o < op.nout) (hx : x < op.Q * (op.out o).size) (hj : j < bs) :
    evalBlk op F bs q o (x * bs + j) = S.outArr op L inv (min (b * bs + j) (op.ne - 1)) o x := by
  unfold evalBlk Meaning.outArr
  by_cases hid : op.isId = true
  · rw [if_pos hid, if_pos hid]
    obtain ⟨h1, h2, h3, _⟩ := h.ident hid
    have ho0 : o = 0 := by omega
    subst ho0
    have hx' : x < op.Q * (op.inp 0).size := by rw [← h3]; exact hx
    unfold Meaning.inArr
    rw [if_pos ⟨by omega, hx'⟩]
    exact hv 0 (by omega) x hx' j hj
  · rw [if_neg hid, if_neg hid]
    obtain ⟨hf, g, hg⟩ := hF
    have hQ : 0 < op.Q := Nat.pos_of_ne_zero (by rintro h0; rw [h0] at hx; simp at hx)
    have hmod := Nat.mod_lt x hQ
    have hdm := Nat.div_add_mod' x op.Q
    have e1 : x * bs + j = x / op.Q * (op.Q * bs) + (x % op.Q * bs + j) := by
      conv_lhs => rw [← hdm]
      ring
    have hlt : x % op.Q * bs + j < op.Q * bs := by
      have : (x % op.Q + 1) * bs ≤ op.Q * bs := Nat.mul_le_mul_right _ hmod
      rw [Nat.add_mul] at this; omega
    rw [e1, hg _ _ _ _ _ hlt, hf]
    conv_rhs => rw [← hdm]
    rw [hg _ _ _ _ _ hmod]
    congr 1
    funext i c
    unfold clipB Meaning.inArr
    have e2 : c * (op.Q * bs) + (x % op.Q * bs + j) = (c * op.Q + x % op.Q) * bs + j := by ring
    rw [e2]
    have hiff : (c * op.Q + x % op.Q) * bs + j < op.Q * (op.inp i).size * bs ↔ c * op.Q + x % op.Q < op.Q * (op.inp i).size := by
      constructor
      · intro hh
        by_contra hn
        have : op.Q * (op.inp i).size * bs ≤ (c * op.Q + x % op.Q) * bs := Nat.mul_le_mul_right _ (by omega)
        omega
      · intro hh
        have : (c * op.Q + x % op.Q + 1) * bs ≤ op.Q * (op.inp i).size * bs := Nat.mul_le_mul_right _ hh
        rw [Nat.add_mul] at this; omega
    by_cases hc : i < op.nin ∧ c * op.Q + x % op.Q < op.Q * (op.inp i).size
    · rw [if_pos ⟨hc.1, hiff.2 hc.2⟩, if_pos hc]
      exact hv i hc.1 _ hc.2 j hj
    · rw [if_neg (fun hh => hc ⟨hh.1, hiff.1 hh.2⟩), if_neg hc]

end Operator
end Verif
