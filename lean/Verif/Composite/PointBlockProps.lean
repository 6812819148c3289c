import Verif.Composite.PointBlock
import Verif.Operator.FullElem

/-!
# C58: the pattern of the point block diagonal
-/

set_option linter.unusedSectionVars false

namespace Verif
namespace Composite

open Finset
open Operator
open Restriction (Rstr RData Made)

variable {α : Type} [CommRing α]

/-- The pair of entry `t`. -/
def pairAt (cs : Int) (nc t : Nat) : Int × Int :=
  (nodePos cs nc (t / (nc * nc)) (t % (nc * nc) / nc), nodePos cs nc (t / (nc * nc)) (t % (nc * nc) % nc))

theorem pairAt_enc (cs : Int) {nc a co ci : Nat} (hco : co < nc) (hci : ci < nc) :
    pairAt cs nc (a * (nc * nc) + (co * nc + ci)) = ((nodePos cs nc a co : Int), (nodePos cs nc a ci : Int)) := by
  have h := enc_lt hco hci
  unfold pairAt
  rw [div_enc h, mod_enc h, div_enc hci, mod_enc hci]

theorem writeNode_ok {nc a : Nat} {cs o : Int} {v : Buf (Int × Int)} (hl : (a + 1) * (nc * nc) ≤ v.len)
    (ho : ∀ k < nc, o + k * cs = nodePos cs nc a k) :
    writeNode nc cs o ((a * (nc * nc) : Nat) : Int) v =
      .ok ⟨v.len, fun t => if t / (nc * nc) = a ∧ 0 < nc then pairAt cs nc t else v.val t⟩ := by
  rcases Nat.eq_zero_or_pos nc with h0 | h0
  · subst h0
    simp [writeNode, loop]
  have hin : ∀ co < nc, ∀ w : Buf (Int × Int), w.len = v.len →
      loop nc (fun ci v => v.wrI (((a * (nc * nc) : Nat) : Int) + (co : Nat) * (nc : Int) + (ci : Nat)) (o + co * cs, o + ci * cs)) w =
      .ok ⟨v.len, fun t => if a * (nc * nc) + co * nc ≤ t ∧ t < a * (nc * nc) + (co * nc + nc) then pairAt cs nc t else w.val t⟩ := by
    intro co hco w hw
    refine loop_pure (f := fun i => (⟨v.len, fun t =>
      if a * (nc * nc) + co * nc ≤ t ∧ t < a * (nc * nc) + (co * nc + i) then pairAt cs nc t else w.val t⟩ : Buf (Int × Int))) ?_ ?_
    · have : ∀ t, ¬ (a * (nc * nc) + co * nc ≤ t ∧ t < a * (nc * nc) + (co * nc + 0)) := by intro t; omega
      simp only [this, if_false, ← hw]
    · intro ci hci
      have hb : ((a * (nc * nc) : Nat) : Int) + (co : Nat) * (nc : Int) + (ci : Nat) =
          ((a * (nc * nc) + (co * nc + ci) : Nat) : Int) := by push_cast; ring
      have hlt : a * (nc * nc) + (co * nc + ci) < v.len := by
        have := enc_lt hco hci
        rw [Nat.add_mul, Nat.one_mul] at hl
        omega
      rw [hb, Buf.wrI, if_pos (by omega), Int.toNat_natCast, Buf.wr_lt (by exact hlt)]
      congr 2
      funext t
      by_cases ht : t = a * (nc * nc) + (co * nc + ci)
      · subst ht
        rw [if_pos rfl, if_pos (by omega), pairAt_enc cs hco hci, ho co hco, ho ci hci]
      · rw [if_neg ht]
        have : (a * (nc * nc) + co * nc ≤ t ∧ t < a * (nc * nc) + (co * nc + (ci + 1))) ↔
          (a * (nc * nc) + co * nc ≤ t ∧ t < a * (nc * nc) + (co * nc + ci)) := by omega
        simp only [this]
  have := loop_pure (n := nc) (s := v) (body := fun co v => loop nc (fun ci v =>
      v.wrI (((a * (nc * nc) : Nat) : Int) + (co : Nat) * (nc : Int) + (ci : Nat)) (o + co * cs, o + ci * cs)) v)
    (f := fun i => (⟨v.len, fun t =>
      if a * (nc * nc) ≤ t ∧ t < a * (nc * nc) + i * nc then pairAt cs nc t else v.val t⟩ : Buf (Int × Int))) (by
      have : ∀ t, ¬ (a * (nc * nc) ≤ t ∧ t < a * (nc * nc) + 0 * nc) := by intro t; omega
      simp only [this, if_false]) (by
      intro co hco
      rw [hin co hco ⟨v.len, fun t =>
        if a * (nc * nc) ≤ t ∧ t < a * (nc * nc) + co * nc then pairAt cs nc t else v.val t⟩ rfl]
      congr 2
      funext t
      have e1 : (co + 1) * nc = co * nc + nc := by ring
      rw [e1]
      by_cases h1 : a * (nc * nc) + co * nc ≤ t ∧ t < a * (nc * nc) + (co * nc + nc)
      · rw [if_pos h1, if_pos (by omega)]
      · rw [if_neg h1]
        have : (a * (nc * nc) ≤ t ∧ t < a * (nc * nc) + co * nc) ↔ (a * (nc * nc) ≤ t ∧ t < a * (nc * nc) + (co * nc + nc)) := by
          omega
        simp only [this])
  unfold writeNode
  rw [this]
  congr 2
  funext t
  have hd : (t / (nc * nc) = a ∧ 0 < nc) ↔ (a * (nc * nc) ≤ t ∧ t < a * (nc * nc) + nc * nc) := by
    have hp := Nat.mul_pos h0 h0
    constructor
    · rintro ⟨rfl, _⟩
      have := Nat.div_add_mod t (nc * nc)
      have := Nat.mod_lt t hp
      rw [Nat.mul_comm (t / (nc * nc))]
      omega
    · rintro ⟨h1, h2⟩
      refine ⟨?_, h0⟩
      have : t = a * (nc * nc) + (t - a * (nc * nc)) := by omega
      rw [this, div_enc (by omega)]
  simp only [hd]

/-- One operator writes the pairs of its nodes. -/
theorem writeOp_ok {op : Oper α} {p : Prec α} {S : Meaning α} (h : OpOK op S) (hd : DiagOK op p S) {β ρ n : Nat}
    {node : Nat → Nat → Nat} (hb : BlockOK op p S β ρ node) (hn : p.inSize = n) (checked : Bool) {v : Buf (Int × Int)}
    (hv : v.len = n * (S.D ρ).nc) :
    (∀ e < op.ne, ∀ m < (S.D ρ).es, (node e m + 1) * (S.D ρ).nc ≤ n) ∧ 0 < (S.D ρ).nc ∧
    ∃ v', writeOp op checked (S.D ρ).nc v = .ok v' ∧ v'.len = v.len ∧
      ∀ t, ((∃ e < op.ne, ∃ m < (S.D ρ).es, node e m = t / ((S.D ρ).nc * (S.D ρ).nc)) →
        v'.val t = pairAt (op.rstrs ρ).compStride (S.D ρ).nc t) ∧
      ((∀ e < op.ne, ∀ m < (S.D ρ).es, node e m ≠ t / ((S.D ρ).nc * (S.D ρ).nc)) → v'.val t = v.val t) := by
  obtain ⟨i, hi, hai⟩ := hb.some
  obtain ⟨hpi, hri⟩ := hb.inB i hi hai
  obtain ⟨r', l, hr', hm, hne⟩ := ((h.inp i hi).active hai).1
  rw [hri] at hr'
  cases hr'
  have hls : (op.rstrs ρ).lSize = n := by rw [hd.inSize i hi hai ρ hri, hn]
  have hN : Nodes (op.rstrs ρ) (S.D ρ) node := by
    intro e he m hm k hk
    exact hb.nodes e (by omega) m hm k hk
  obtain ⟨hlen, hoff, hrng, rp, ⟨hl1, hl2⟩, q1, _⟩ := pointBlock_offsets hm hb.rtype hN checked
  obtain ⟨pe, pc⟩ := made_pos hm hb.rtype
  have hR := hm.rep.1
  have hrng' : ∀ e < op.ne, ∀ m < (S.D ρ).es, (node e m + 1) * (S.D ρ).nc ≤ n := by
    intro e he m hm
    have := hrng e (by omega) m hm
    rw [hls] at this
    exact_mod_cast this
  have hact : activeRstr op.inp op.nin = .ok ρ :=
    activeRstr_eq (fun i hi ha => (hb.inB i hi ha).2) hb.some
  have hnn : ((op.rstrs ρ).numElem * (op.rstrs ρ).elemSize).toNat = op.ne * (S.D ρ).es := by
    rw [hR.ne, hR.es, hne]; norm_cast
  refine ⟨hrng', pc, ?_⟩
  have hrun : ∃ v', loop (op.ne * (S.D ρ).es) (fun i v => do
      let o ← (op.rstrs ρ).offsets.rd i
      let b ← rp.offsets.rd i
      writeNode (S.D ρ).nc (op.rstrs ρ).compStride o b v) v = .ok v' ∧ (v'.len = v.len ∧
      ∀ t, ((∃ i < op.ne * (S.D ρ).es, node (i / (S.D ρ).es) (i % (S.D ρ).es) = t / ((S.D ρ).nc * (S.D ρ).nc)) →
        v'.val t = pairAt (op.rstrs ρ).compStride (S.D ρ).nc t) ∧
      ((∀ i < op.ne * (S.D ρ).es, node (i / (S.D ρ).es) (i % (S.D ρ).es) ≠ t / ((S.D ρ).nc * (S.D ρ).nc)) →
        v'.val t = v.val t)) := by
    refine loop_inv (fun j (w : Buf (Int × Int)) => w.len = v.len ∧
      ∀ t, ((∃ i < j, node (i / (S.D ρ).es) (i % (S.D ρ).es) = t / ((S.D ρ).nc * (S.D ρ).nc)) →
        w.val t = pairAt (op.rstrs ρ).compStride (S.D ρ).nc t) ∧
      ((∀ i < j, node (i / (S.D ρ).es) (i % (S.D ρ).es) ≠ t / ((S.D ρ).nc * (S.D ρ).nc)) →
        w.val t = v.val t)) ⟨rfl, fun t => ⟨fun ⟨i, hi, _⟩ => absurd hi (by omega), fun _ => rfl⟩⟩ ?_
    intro j hj w hw
    obtain ⟨j1, j2⟩ := dec_lt hj
    have e1 := hoff _ (by rw [hne]; exact j1) _ j2
    have e2 := hl2 _ (by rw [hne]; exact j1) _ j2
    rw [dec_eq] at e1 e2
    rw [Buf.rd_lt (lt_of_lt_of_le (by rw [hne]; exact hj) hlen), Buf.rd_lt (by rw [hl1, hne]; exact hj)]
    simp only [Res.bind_ok, e1, e2]
    have hle : (node (j / (S.D ρ).es) (j % (S.D ρ).es) + 1) * ((S.D ρ).nc * (S.D ρ).nc) ≤ w.len := by
      rw [hw.1, hv, ← Nat.mul_assoc]
      exact Nat.mul_le_mul_right _ (hrng' _ j1 _ j2)
    rw [writeNode_ok hle]
    · refine ⟨_, rfl, hw.1, fun t => ⟨?_, ?_⟩⟩
      · rintro ⟨i, hi, hit⟩
        show (if _ then _ else _) = _
        split
        · rfl
        · rename_i hx
          refine (hw.2 t).1 ⟨i, ?_, hit⟩
          by_contra hh
          have : i = j := by omega
          subst this
          exact hx ⟨hit.symm, pc⟩
      · intro hx
        show (if _ then _ else _) = _
        rw [if_neg (fun hh => hx j (by omega) hh.1.symm)]
        exact (hw.2 t).2 (fun i hi => hx i (by omega))
    · intro k hk
      have h0 := hN.pos (k := 0) (by rw [hne]; exact j1) j2 pc
      rw [h0]
      unfold nodePos
      rcases hN _ (by rw [hne]; exact j1) _ j2 k hk with ⟨c1, _⟩ | ⟨c1, _, c3⟩
      · rw [if_pos c1, if_pos c1, c1]; push_cast; ring
      · rw [if_neg c1, if_neg c1]
        have : (((op.rstrs ρ).compStride.toNat : Nat) : Int) = (op.rstrs ρ).compStride := by omega
        push_cast
        rw [this]; ring
  obtain ⟨v', f1, f2, f3⟩ := hrun
  refine ⟨v', ?_, f2, fun t => ⟨?_, ?_⟩⟩
  · unfold writeOp
    rw [hact]
    simp only [Res.bind_ok, q1, hnn]
    exact f1
  · rintro ⟨e, he, m, hm, hx⟩
    exact (f3 t).1 ⟨e * (S.D ρ).es + m, enc_lt he hm, by rw [div_enc hm, mod_enc hm, hx]⟩
  · intro hx
    exact (f3 t).2 (fun i hi => hx _ (dec_lt hi).1 _ (dec_lt hi).2)

/-- All operators. -/
theorem writeOps_ok {ops : Nat → Oper α} {P : Nat → Prec α} {S : Nat → Meaning α} {n nc : Nat} {cs : Int} {β ρ : Nat → Nat}
    {node : Nat → Nat → Nat → Nat} (checked : Bool) : ∀ (ks : List Nat) (v : Buf (Int × Int)), v.len = n * nc →
    (∀ k ∈ ks, OpOK (ops k) (S k) ∧ DiagOK (ops k) (P k) (S k)) → (∀ k ∈ ks, (P k).inSize = n) →
    (∀ k ∈ ks, BlockOK (ops k) (P k) (S k) (β k) (ρ k) (node k) ∧ ((S k).D (ρ k)).nc = nc ∧
      ((ops k).rstrs (ρ k)).compStride = cs) →
    ∃ v', writeOps ops checked nc ks v = .ok v' ∧ v'.len = v.len ∧
      ∀ t, (Touched ops S ks ρ node (t / (nc * nc)) → v'.val t = pairAt cs nc t) ∧
        (¬ Touched ops S ks ρ node (t / (nc * nc)) → v'.val t = v.val t)
  | [], v, _, _, _, _ => ⟨v, rfl, rfl, fun t => ⟨fun ⟨k, hk, _⟩ => absurd hk (by simp), fun _ => rfl⟩⟩
  | k :: ks, v, hv, h1, h2, h3 => by
    obtain ⟨a1, a2⟩ := h1 k (by simp)
    obtain ⟨b1, rfl, rfl⟩ := h3 k (by simp)
    obtain ⟨_, _, v1, e1, f1, g1⟩ := writeOp_ok a1 a2 b1 (h2 k (by simp)) checked hv
    obtain ⟨v2, e2, f2, g2⟩ := writeOps_ok checked ks v1 (f1.trans hv) (fun j hj => h1 j (by simp [hj]))
      (fun j hj => h2 j (by simp [hj])) (fun j hj => h3 j (by simp [hj]))
    refine ⟨v2, ?_, f2.trans f1, fun t => ?_⟩
    · rw [writeOps, e1]; exact e2
    by_cases ht : Touched ops S ks ρ node (t / (((S k).D (ρ k)).nc * ((S k).D (ρ k)).nc))
    · refine ⟨fun _ => (g2 t).1 ht, fun hx => absurd ?_ hx⟩
      obtain ⟨j, hj, hh⟩ := ht
      exact ⟨j, by simp [hj], hh⟩
    · rw [(g2 t).2 ht]
      refine ⟨fun hx => ?_, fun hx => ?_⟩
      · obtain ⟨j, hj, hh⟩ := hx
        rcases List.mem_cons.1 hj with rfl | hj
        · exact (g1 t).1 hh
        · exact absurd ⟨j, hj, hh⟩ ht
      · exact (g1 t).2 (fun e he m hm hh => hx ⟨k, by simp, e, he, m, hm, hh⟩)

/-! ## The checks -/

theorem asmRstrs_all {op : Oper α} {p : Prec α} {S : Meaning α} {β ρ : Nat} {node : Nat → Nat → Nat}
    (hb : BlockOK op p S β ρ node) : asmRstrs op p ≠ [] ∧ ∀ r ∈ asmRstrs op p, r = some ρ := by
  obtain ⟨_, h2, h3⟩ := asmData_fst p op.inp p.inB op.nin
  obtain ⟨i, hi, ha⟩ := hb.some
  constructor
  · intro hh
    have := (h2 (p.inB i)).2 ⟨i, hi, ha, rfl⟩
    simp only [asmRstrs, List.map_eq_nil_iff] at hh
    rw [hh] at this
    simp at this
  · intro r hr
    obtain ⟨a, ha, rfl⟩ := List.mem_map.1 hr
    obtain ⟨_, j, hj, hj1, _, hj2⟩ := h3 a ha
    rw [← hj2]
    exact (hb.inB j hj hj1).2

theorem checkRstrs_ok {op : Oper α} {ρ : Nat} : ∀ l : List (Option Nat), (∀ r ∈ l, r = some ρ) →
    checkRstrs op ((op.rstrs ρ).compStride, (op.rstrs ρ).numComp) l = .ok ()
  | [], _ => rfl
  | r :: l, h => by
    rw [checkRstrs, h r (by simp), strideOf, Res.bind_ok, Res.check_true rfl, Res.bind_ok, Res.check_true rfl, Res.bind_ok]
    exact checkRstrs_ok l (fun x hx => h x (by simp [hx]))

theorem BlocksOK.nc {ops : Nat → Oper α} {P : Nat → Prec α} {S : Nat → Meaning α} {ks : List Nat} {n nc : Nat} {cs : Int}
    {β ρ : Nat → Nat} {node : Nat → Nat → Nat → Nat} (h : BlocksOK ops P S ks n nc cs β ρ node) {k : Nat} (hk : k ∈ ks) :
    ((ops k).rstrs (ρ k)).numComp = nc := by
  obtain ⟨hb, h1, _⟩ := h.block k hk
  obtain ⟨i, hi, ha⟩ := hb.some
  obtain ⟨r', l, hr', hm, _⟩ := (((h.ok k hk).1.inp i hi).active ha).1
  rw [(hb.inB i hi ha).2] at hr'
  cases hr'
  rw [hm.rep.1.nc, h1]

theorem checkOps_ok {ops : Nat → Oper α} {P : Nat → Prec α} {S : Nat → Meaning α} {nc : Nat} {cs : Int}
    {β ρ : Nat → Nat} {node : Nat → Nat → Nat → Nat} : ∀ ks : List Nat,
    (∀ k ∈ ks, BlockOK (ops k) (P k) (S k) (β k) (ρ k) (node k) ∧ ((ops k).rstrs (ρ k)).numComp = nc ∧
      ((ops k).rstrs (ρ k)).compStride = cs) → checkOps ops P (cs, nc) ks = .ok ()
  | [], _ => rfl
  | k :: ks, h => by
    obtain ⟨h1, rfl, rfl⟩ := h k (by simp)
    rw [checkOps, checkRstrs_ok _ (asmRstrs_all h1).2, Res.bind_ok]
    exact checkOps_ok ks (fun j hj => h j (by simp [hj]))

theorem pattern_eq {ops : Nat → Oper α} {P : Nat → Prec α} {S : Nat → Meaning α} {ks : List Nat} {n nc : Nat} {cs : Int}
    {β ρ : Nat → Nat} {node : Nat → Nat → Nat → Nat} (h : BlocksOK ops P S ks n nc cs β ρ node) (checked : Bool) :
    blockPattern ops P checked n n ks = writeOps ops checked nc ks ⟨n * nc, fun _ => (0, 0)⟩ := by
  have hf : firstStride ops P ks = .ok (cs, nc) := by
    have hne := h.ne
    cases ks with
    | nil => exact absurd rfl hne
    | cons k ks =>
      obtain ⟨h1, h2, h3⟩ := h.block k (by simp)
      obtain ⟨a1, a2⟩ := asmRstrs_all h1
      rw [firstStride]
      cases hl : asmRstrs (ops k) (P k) with
      | nil => exact absurd hl a1
      | cons r l =>
        show strideOf (ops k) r = _
        rw [a2 r (by rw [hl]; simp), strideOf, h3, h.nc (k := k) (by simp)]
  unfold blockPattern
  rw [Res.check_true rfl, Res.bind_ok, hf, Res.bind_ok,
    checkOps_ok ks (fun k hk => ⟨(h.block k hk).1, h.nc hk, (h.block k hk).2.2⟩), Res.bind_ok]
  have : ((n : Int) * (nc : Int)).toNat = n * nc := by norm_cast
  simp only [this]

theorem BlocksOK.rng {ops : Nat → Oper α} {P : Nat → Prec α} {S : Nat → Meaning α} {ks : List Nat} {n nc : Nat} {cs : Int}
    {β ρ : Nat → Nat} {node : Nat → Nat → Nat → Nat} (h : BlocksOK ops P S ks n nc cs β ρ node) {a : Nat}
    (ht : Touched ops S ks ρ node a) : (a + 1) * nc ≤ n ∧ 0 < nc ∧ (cs = 1 ∨ a < cs.toNat) := by
  obtain ⟨k, hk, e, he, m, hm, rfl⟩ := ht
  obtain ⟨h1, h2, h3⟩ := h.block k hk
  obtain ⟨a1, a2⟩ := h.ok k hk
  obtain ⟨b1, b2, _⟩ := writeOp_ok a1 a2 h1 (h.size k hk) true (v := ⟨n * ((S k).D (ρ k)).nc, fun _ => (0, 0)⟩) rfl
  rw [h2] at b1 b2
  refine ⟨b1 e he m hm, b2, ?_⟩
  rcases h1.nodes e he m hm 0 (by omega) with ⟨c1, _⟩ | ⟨_, _, c3⟩
  · exact Or.inl (by rw [← h3, c1])
  · exact Or.inr (by rw [← h3]; exact c3)

theorem BlocksOK.pos {ops : Nat → Oper α} {P : Nat → Prec α} {S : Nat → Meaning α} {ks : List Nat} {n nc : Nat} {cs : Int}
    {β ρ : Nat → Nat} {node : Nat → Nat → Nat → Nat} (h : BlocksOK ops P S ks n nc cs β ρ node) : 0 < nc := by
  have hne := h.ne
  cases ks with
  | nil => exact absurd rfl hne
  | cons k ks =>
    obtain ⟨h1, h2, h3⟩ := h.block k (by simp)
    obtain ⟨a1, a2⟩ := h.ok k (by simp)
    obtain ⟨b1, b2, _⟩ := writeOp_ok a1 a2 h1 (h.size k (by simp)) true (v := ⟨n * ((S k).D (ρ k)).nc, fun _ => (0, 0)⟩) rfl
    rw [h2] at b2
    exact b2

/-! ## Properties -/

/-- `CeedOperatorLinearAssemblePointBlockDiagonalSymbolic` succeeds with `n nc` entries. The entry at `a nc² + co nc + ci` of a
node `a` is the pair of the row of component `co` and the column of component `ci` of this node. The entries of nodes that
belong to no element are `(0, 0)`. -/
theorem C58_pattern {ops : Nat → Oper α} {P : Nat → Prec α} {S : Nat → Meaning α} {ks : List Nat} {n nc : Nat} {cs : Int}
    {β ρ : Nat → Nat} {node : Nat → Nat → Nat → Nat} (h : BlocksOK ops P S ks n nc cs β ρ node) (checked : Bool) :
    ∃ v, blockPattern ops P checked n n ks = .ok v ∧ v.len = n * nc ∧
      (∀ a co ci, co < nc → ci < nc → Touched ops S ks ρ node a → a * (nc * nc) + (co * nc + ci) < v.len ∧
        v.val (a * (nc * nc) + (co * nc + ci)) = ((nodePos cs nc a co : Int), (nodePos cs nc a ci : Int))) ∧
      ∀ a co ci, co < nc → ci < nc → ¬ Touched ops S ks ρ node a → v.val (a * (nc * nc) + (co * nc + ci)) = (0, 0) := by
  obtain ⟨v, e, hl, hv⟩ := writeOps_ok checked ks ⟨n * nc, fun _ => (0, 0)⟩ rfl h.ok h.size h.block
  refine ⟨v, by rw [pattern_eq h, e], hl, fun a co ci hco hci ht => ?_, fun a co ci hco hci ht => ?_⟩
  · have hx := enc_lt hco hci
    refine ⟨?_, ?_⟩
    · have h1 := (h.rng ht).1
      have h2 : (a + 1) * nc * nc ≤ n * nc := Nat.mul_le_mul_right _ h1
      have h3 : (a + 1) * nc * nc = a * (nc * nc) + nc * nc := by ring
      show _ < v.len
      rw [hl]
      show _ < n * nc
      omega
    · rw [(hv _).1 (by rw [div_enc hx]; exact ht), pairAt_enc cs hco hci]
  · have hx := enc_lt hco hci
    exact (hv _).2 (by rw [div_enc hx]; exact ht)

theorem nodePos_inj {cs : Int} {nc a a' k k' : Nat} (hk : k < nc) (hk' : k' < nc) (ha : cs = 1 ∨ a < cs.toNat)
    (ha' : cs = 1 ∨ a' < cs.toNat) (h : nodePos cs nc a k = nodePos cs nc a' k') : a = a' ∧ k = k' := by
  unfold nodePos at h
  by_cases h1 : cs = 1
  · rw [if_pos h1, if_pos h1] at h
    have e1 := div_enc (a := a) hk
    have e2 := mod_enc (a := a) hk
    rw [h] at e1 e2
    rw [div_enc hk'] at e1
    rw [mod_enc hk'] at e2
    exact ⟨e1.symm, e2.symm⟩
  · rw [if_neg h1, if_neg h1, Nat.add_comm, Nat.add_comm a'] at h
    have e1 := div_enc (a := k) (ha.resolve_left h1)
    have e2 := mod_enc (a := k) (ha.resolve_left h1)
    rw [h] at e1 e2
    rw [div_enc (ha'.resolve_left h1)] at e1
    rw [mod_enc (ha'.resolve_left h1)] at e2
    exact ⟨e2.symm, e1.symm⟩

/-- Position of an entry. -/
theorem entry_split {nc : Nat} (h : 0 < nc) (t : Nat) :
    ∃ a co ci, co < nc ∧ ci < nc ∧ t = a * (nc * nc) + (co * nc + ci) := by
  have h1 := Nat.mod_lt t (Nat.mul_pos h h)
  obtain ⟨h2, h3⟩ := dec_lt h1
  exact ⟨t / (nc * nc), t % (nc * nc) / nc, t % (nc * nc) % nc, h2, h3, by rw [dec_eq, dec_eq]⟩

/-- If every node belongs to an element, the pairs are unique, as documented. -/
theorem C58_unique_partial {ops : Nat → Oper α} {P : Nat → Prec α} {S : Nat → Meaning α} {ks : List Nat} {n nc : Nat} {cs : Int}
    {β ρ : Nat → Nat} {node : Nat → Nat → Nat → Nat} (h : BlocksOK ops P S ks n nc cs β ρ node) {checked : Bool}
    {v : Buf (Int × Int)} (e : blockPattern ops P checked n n ks = .ok v)
    (ht : ∀ a, a * (nc * nc) < v.len → Touched ops S ks ρ node a) :
    ∀ t < v.len, ∀ t' < v.len, v.val t = v.val t' → t = t' := by
  obtain ⟨v', e', _, h2, _⟩ := C58_pattern h checked
  rw [e] at e'
  cases e'
  intro t hlt t' hlt' hh
  obtain ⟨a, co, ci, hco, hci, rfl⟩ := entry_split h.pos t
  obtain ⟨a', co', ci', hco', hci', rfl⟩ := entry_split h.pos t'
  have t1 := ht a (by omega)
  have t2 := ht a' (by omega)
  rw [(h2 a co ci hco hci t1).2, (h2 a' co' ci' hco' hci' t2).2, Prod.mk.injEq] at hh
  obtain ⟨x1, x2⟩ := hh
  obtain ⟨rfl, rfl⟩ := nodePos_inj hco hco' (h.rng t1).2.2 (h.rng t2).2.2 (by exact_mod_cast x1)
  obtain ⟨_, rfl⟩ := nodePos_inj hci hci' (h.rng t1).2.2 (h.rng t2).2.2 (by exact_mod_cast x2)
  rfl

/-- The matrix described by the pairs and by values as in C44: the point blocks of the matrix, and zeros elsewhere. -/
theorem pattern_coo {ops : Nat → Oper α} {P : Nat → Prec α} {S : Nat → Meaning α} {ks : List Nat} {n nc : Nat} {cs : Int}
    {β ρ : Nat → Nat} {node : Nat → Nat → Nat → Nat} (h : BlocksOK ops P S ks n nc cs β ρ node) {checked : Bool}
    {v : Buf (Int × Int)} (e : blockPattern ops P checked n n ks = .ok v) {w : Nat → α} {A : Nat → Nat → α}
    (hw : ∀ a co ci, co < nc → ci < nc → (cs = 1 ∨ a < cs.toNat) → nodePos cs nc a ci < n →
      w (a * (nc * nc) + (co * nc + ci)) = A (nodePos cs nc a co) (nodePos cs nc a ci))
    (hu : ∀ a co ci, co < nc → ci < nc → ¬ Touched ops S ks ρ node a → w (a * (nc * nc) + (co * nc + ci)) = 0) :
    ∀ i j, j < n → (SameNode cs nc i j → coo v w i j = A i j) ∧ (¬ SameNode cs nc i j → coo v w i j = 0) := by
  obtain ⟨v', e', _, h2, _⟩ := C58_pattern h checked
  rw [e] at e'
  cases e'
  intro i j hj
  constructor
  · rintro ⟨a, co, ci, hco, hci, ha, rfl, rfl⟩
    rw [← hw a co ci hco hci ha hj]
    unfold coo
    rw [sum_eq_single (a * (nc * nc) + (co * nc + ci))]
    · split
      · rfl
      · rename_i hx
        by_cases ht : Touched ops S ks ρ node a
        · exact absurd (h2 a co ci hco hci ht).2 hx
        · rw [hu a co ci hco hci ht]
    · intro t _ hne
      split
      · rename_i hx
        obtain ⟨a', co', ci', hco', hci', rfl⟩ := entry_split h.pos t
        by_cases ht : Touched ops S ks ρ node a'
        · rw [(h2 a' co' ci' hco' hci' ht).2, Prod.mk.injEq] at hx
          obtain ⟨x1, x2⟩ := hx
          obtain ⟨rfl, rfl⟩ := nodePos_inj hco' hco (h.rng ht).2.2 ha (by exact_mod_cast x1)
          obtain ⟨_, rfl⟩ := nodePos_inj hci' hci (h.rng ht).2.2 ha (by exact_mod_cast x2)
          exact absurd rfl hne
        · exact hu a' co' ci' hco' hci' ht
      · rfl
    · intro hx
      rw [mem_range] at hx
      rw [hu a co ci hco hci (fun ht => hx (h2 a co ci hco hci ht).1)]
      split <;> rfl
  · intro hs
    unfold coo
    refine sum_eq_zero (fun t _ => ?_)
    split
    · rename_i hx
      obtain ⟨a', co', ci', hco', hci', rfl⟩ := entry_split h.pos t
      by_cases ht : Touched ops S ks ρ node a'
      · rw [(h2 a' co' ci' hco' hci' ht).2, Prod.mk.injEq] at hx
        obtain ⟨x1, x2⟩ := hx
        exact absurd ⟨a', co', ci', hco', hci', (h.rng ht).2.2, by exact_mod_cast x1.symm, by exact_mod_cast x2.symm⟩ hs
      · exact hu a' co' ci' hco' hci' ht
    · rfl

/-- The pairs of `CeedOperatorLinearAssemblePointBlockDiagonalSymbolic` and the values of
`CeedOperatorLinearAssemblePointBlockDiagonal` describe the point blocks of the matrix of a single operator: adding each value
at its pair gives the entries of the matrix where row and column belong to the same node, and zeros elsewhere. (Missing: as for
`C44_block_diagonal_partial`.) -/
theorem C58_single_partial {ops : Nat → Oper α} {P : Nat → Prec α} {S : Nat → Meaning α} {k n nc : Nat} {cs : Int}
    {β ρ : Nat → Nat} {node : Nat → Nat → Nat → Nat} (h : BlocksOK ops P S [k] n nc cs β ρ node) (hlin : LinearQF (ops k))
    (hne : 0 < (ops k).ne) {s s1 s2 : ASt α} (hs : Unassembled (ops k) s) (hn : NoApply (ops k) s s1)
    (hf : s1.built = none ∨ s1.reuse = false ∨ s1.needs = true) {checked : Bool} {junk : Nat → Nat → α} {out : Nat}
    (ho : ∀ i < (ops k).nin, ((ops k).inp i).vec ≠ .vec out)
    (e : assembleDiagonal (ops k) (P k) true checked junk out s1 = .ok s2 ()) {A : Nat → Nat → α}
    (hA : IsMatrix (ops k) (S k) s1.st.L n A) {v : Buf (Int × Int)} (ev : blockPattern ops P checked n n [k] = .ok v) :
    ∀ i j, j < n → (SameNode cs nc i j → coo v (s2.st.L out) i j = A i j) ∧
      (¬ SameNode cs nc i j → coo v (s2.st.L out) i j = 0) := by
  obtain ⟨h1, h2⟩ := h.ok k (by simp)
  obtain ⟨hb, b1, b2⟩ := h.block k (by simp)
  have hsz := h.size k (by simp)
  have hA' : IsMatrix (ops k) (S k) s1.st.L (P k).inSize.toNat A := by rw [hsz]; exact hA
  obtain ⟨⟨a1, a2, _⟩, _⟩ := C44_block_diagonal_partial h1 h2 hlin hb hne hs hn hf ho e hA'
  rw [b1, b2, hsz, Int.toNat_natCast] at a1
  rw [b1] at a2
  refine pattern_coo h ev a1 (fun a co ci hco hci ht => a2 a co ci hco hci (fun e he m hm hh => ht ⟨k, by simp, e, he, m, hm, hh⟩))

/-- On composites, `CeedOperatorLinearAssemblePointBlockDiagonal` sets the vector to the point blocks. -/
theorem C44_composite_block_diagonal_partial {ops : Nat → Oper α} {P : Nat → Prec α} {S : Nat → Meaning α} {l : List Tree}
    {n : Nat} {start : Nat → ASt α} {c c' : CASt α} (h : ReadyC ops P S (leaves (.comp l)) n start c) {checked : Bool}
    {junk : Nat → Nat → Nat → α} {out : Nat}
    (ho : ∀ k ∈ leaves (.comp l), ∀ i < (ops k).nin, ((ops k).inp i).vec ≠ .vec out)
    {nc : Nat} {cs : Int} {β ρ : Nat → Nat} {node : Nat → Nat → Nat → Nat}
    (hb : ∀ k ∈ leaves (.comp l), BlockOK (ops k) (P k) (S k) (β k) (ρ k) (node k) ∧ ((S k).D (ρ k)).nc = nc ∧
      ((ops k).rstrs (ρ k)).compStride = cs)
    (e : diagT ops P true checked junk out (.comp l) c = .ok c' ()) {A : Nat → Nat → α}
    (hA : IsMatrixC ops S (leaves (.comp l)) c.L n A) :
    (∀ a co ci, co < nc → ci < nc → (cs = 1 ∨ a < cs.toNat) → nodePos cs nc a ci < n →
      c'.L out (a * (nc * nc) + (co * nc + ci)) = A (nodePos cs nc a co) (nodePos cs nc a ci)) ∧
    (∀ a co ci, co < nc → ci < nc → ¬ Touched ops S (leaves (.comp l)) ρ node a →
      c'.L out (a * (nc * nc) + (co * nc + ci)) = 0) ∧
    ∀ w, w ≠ out → c'.vecs w = c.vecs w := by
  obtain ⟨c1, z1, z2, z3, z4⟩ := zeroA_ready h out
  have hA1 : IsMatrixC ops S (leaves (.comp l)) c1.L n A := hA.congr (fun k hk i hi w hiw => by
    show (c1.vecs w).buf.val = (c.vecs w).buf.val
    rw [z4 w (fun hh => ho k hk i hi (by rw [hiw, hh]))])
  have e1 := diagT_zero z1 e
  obtain ⟨a1, a2⟩ := C44_composite_block_partial z2 ho hb e1 hA1
  refine ⟨fun a co ci hco hci hcs hlt => by rw [a1 a co ci hco hci hcs hlt, z3, zero_add], ?_,
    fun w hw => (a2 w hw).trans (z4 w hw)⟩
  intro a co ci hco hci ht
  rw [addDiagT_eq] at e1
  have key := (sum_leaves (X := fun x => x = a * (nc * nc) + (co * nc + ci)) (G := fun _ _ => 0) (vecs0 := c1.vecs)
    (leaves (.comp l)) c1 c' z2.nodup (fun _ _ => rfl) (fun k hk => (z2.start k hk).2) z2.fresh
    (fun k hk s1 s2 hn hf hw e2 => by
      obtain ⟨h1, h2, h3⟩ := z2.ok k hk
      obtain ⟨hbk, rfl, rfl⟩ := hb k hk
      obtain ⟨g1, g2, g3⟩ := (z2.start k hk).1.good h1
      obtain ⟨d1, d2, _⟩ := hn.sound h1 g1 g2 g3
      obtain ⟨B, hB⟩ := C44_matrix h1 h3 s1.st.L h2.inSize
      obtain ⟨⟨_, b2, b3⟩, _⟩ := C44_block_partial h1 h2 h3 hbk (z2.start k hk).1 hn hf e2 hB
      refine ⟨fun x hx => ?_, b3, adding_advances h1 d1 d2 (addBlock_ok h1 h2 hbk d1 d2 e2)⟩
      subst hx
      rw [add_zero]
      exact b2 a co ci hco hci (fun e he m hm hh => ht ⟨k, hk, e, he, m, hm, hh⟩)) e1).1 _ rfl
  rw [key, z3, zero_add]
  simp

/-- The same for composites of single operators. -/
theorem C58_composite_partial {ops : Nat → Oper α} {P : Nat → Prec α} {S : Nat → Meaning α} {l : List Tree} {n nc : Nat}
    {cs : Int} {β ρ : Nat → Nat} {node : Nat → Nat → Nat → Nat}
    (h : BlocksOK ops P S (leaves (.comp l)) n nc cs β ρ node) {start : Nat → ASt α} {c c' : CASt α}
    (hr : ReadyC ops P S (leaves (.comp l)) n start c) {checked : Bool} {junk : Nat → Nat → Nat → α} {out : Nat}
    (ho : ∀ k ∈ leaves (.comp l), ∀ i < (ops k).nin, ((ops k).inp i).vec ≠ .vec out)
    (e : diagT ops P true checked junk out (.comp l) c = .ok c' ()) {A : Nat → Nat → α}
    (hA : IsMatrixC ops S (leaves (.comp l)) c.L n A) {v : Buf (Int × Int)}
    (ev : blockPattern ops P checked n n (leaves (.comp l)) = .ok v) :
    ∀ i j, j < n → (SameNode cs nc i j → coo v (c'.L out) i j = A i j) ∧
      (¬ SameNode cs nc i j → coo v (c'.L out) i j = 0) := by
  obtain ⟨a1, a2, _⟩ := C44_composite_block_diagonal_partial hr ho h.block e hA
  exact pattern_coo h ev a1 a2

/-- Operators that are not square are rejected. -/
theorem C58_square (ops : Nat → Oper α) (P : Nat → Prec α) (checked : Bool) {m n : Int} (h : m ≠ n) (ks : List Nat) :
    blockPattern ops P checked m n ks = .err .dimension := by
  unfold blockPattern
  rw [Res.check_false h]; rfl

theorem checkRstrs_bad {op : Oper α} {x : Int × Nat} : ∀ l : List (Option Nat), (∀ r ∈ l, ∃ ρ, r = some ρ) →
    (∃ ρ, some ρ ∈ l ∧ ((op.rstrs ρ).compStride, (op.rstrs ρ).numComp) ≠ x) →
    checkRstrs op x l = .err .dimension ∨ checkRstrs op x l = .err .incompatible
  | [], _, ⟨ρ, h, _⟩ => absurd h (by simp)
  | r :: l, h, hx => by
    obtain ⟨ρ, rfl⟩ := h r (by simp)
    rw [checkRstrs, strideOf, Res.bind_ok]
    by_cases h1 : x.1 = (op.rstrs ρ).compStride
    · rw [Res.check_true h1, Res.bind_ok]
      by_cases h2 : x.2 = (op.rstrs ρ).numComp
      · rw [Res.check_true h2, Res.bind_ok]
        refine checkRstrs_bad l (fun r hr => h r (by simp [hr])) ?_
        obtain ⟨ρ', hm, hne⟩ := hx
        rcases List.mem_cons.1 hm with hm | hm
        · cases hm
          exact absurd (by rw [← h1, ← h2]) hne
        · exact ⟨ρ', hm, hne⟩
      · rw [Res.check_false h2]; exact Or.inr rfl
    · rw [Res.check_false h1]; exact Or.inl rfl

theorem checkOps_bad {ops : Nat → Oper α} {P : Nat → Prec α} {x : Int × Nat} : ∀ ks : List Nat,
    (∀ k ∈ ks, ∀ i < (ops k).nin, ((ops k).inp i).vec = .active → ∃ ρ, ((ops k).inp i).rid = some ρ) →
    (∃ k ∈ ks, ∃ ρ, some ρ ∈ asmRstrs (ops k) (P k) ∧ (((ops k).rstrs ρ).compStride, ((ops k).rstrs ρ).numComp) ≠ x) →
    checkOps ops P x ks = .err .dimension ∨ checkOps ops P x ks = .err .incompatible
  | [], _, ⟨k, hk, _⟩ => absurd hk (by simp)
  | k :: ks, h, hx => by
    have hall : ∀ r ∈ asmRstrs (ops k) (P k), ∃ ρ, r = some ρ := by
      intro r hr
      obtain ⟨a, ha, rfl⟩ := List.mem_map.1 hr
      obtain ⟨_, j, hj, hj1, _, hj2⟩ := (asmData_fst (P k) (ops k).inp (P k).inB (ops k).nin).2.2 a ha
      rw [← hj2]
      exact h k (by simp) j hj hj1
    rw [checkOps]
    by_cases hk : ∃ ρ, some ρ ∈ asmRstrs (ops k) (P k) ∧ (((ops k).rstrs ρ).compStride, ((ops k).rstrs ρ).numComp) ≠ x
    · rcases checkRstrs_bad _ hall hk with h1 | h1 <;> rw [h1]
      · exact Or.inl rfl
      · exact Or.inr rfl
    · have h1 : checkRstrs (ops k) x (asmRstrs (ops k) (P k)) = .ok () := by
        have : ∀ l : List (Option Nat), (∀ r ∈ l, ∃ ρ, r = some ρ) →
            (∀ ρ, some ρ ∈ l → (((ops k).rstrs ρ).compStride, ((ops k).rstrs ρ).numComp) = x) →
            checkRstrs (ops k) x l = .ok () := by
          intro l
          induction l with
          | nil => intro _ _; rfl
          | cons r l ih =>
            intro g1 g2
            obtain ⟨ρ, rfl⟩ := g1 r (by simp)
            have g3 := g2 ρ (by simp)
            rw [checkRstrs, strideOf, Res.bind_ok, Res.check_true (by rw [← g3]), Res.bind_ok,
              Res.check_true (by rw [← g3]), Res.bind_ok]
            exact ih (fun r hr => g1 r (by simp [hr])) (fun ρ hρ => g2 ρ (by simp [hρ]))
        refine this _ hall (fun ρ hρ => ?_)
        by_contra hne
        exact hk ⟨ρ, hρ, hne⟩
      rw [h1, Res.bind_ok]
      refine checkOps_bad ks (fun j hj => h j (by simp [hj])) ?_
      obtain ⟨j, hj, ρ, h2, h3⟩ := hx
      rcases List.mem_cons.1 hj with rfl | hj
      · exact absurd ⟨ρ, h2, h3⟩ hk
      · exact ⟨j, hj, ρ, h2, h3⟩

/-- Two active inputs of the parts whose restrictions differ in the component stride or in the number of components are
rejected, if they are the first with their basis (those that the assembly data record). -/
theorem C58_incompatible (ops : Nat → Oper α) (P : Nat → Prec α) (checked : Bool) (n : Int) {ks : List Nat}
    (h : ∀ k ∈ ks, ∀ i < (ops k).nin, ((ops k).inp i).vec = .active → ∃ ρ, ((ops k).inp i).rid = some ρ)
    (h0 : ∀ k, ks.head? = some k → ∃ i < (ops k).nin, ((ops k).inp i).vec = .active)
    {k k' r r' : Nat} (hk : k ∈ ks) (hk' : k' ∈ ks) (hr : some r ∈ asmRstrs (ops k) (P k))
    (hr' : some r' ∈ asmRstrs (ops k') (P k'))
    (hne : (((ops k).rstrs r).compStride, ((ops k).rstrs r).numComp) ≠
      (((ops k').rstrs r').compStride, ((ops k').rstrs r').numComp)) :
    blockPattern ops P checked n n ks = .err .dimension ∨ blockPattern ops P checked n n ks = .err .incompatible := by
  unfold blockPattern
  rw [Res.check_true rfl, Res.bind_ok]
  have hf : ∃ x, firstStride ops P ks = .ok x := by
    cases ks with
    | nil => simp at hk
    | cons j js =>
      obtain ⟨i, hi, ha⟩ := h0 j rfl
      rw [firstStride]
      cases hl : asmRstrs (ops j) (P j) with
      | nil =>
        have := ((asmData_fst (P j) (ops j).inp (P j).inB (ops j).nin).2.1 ((P j).inB i)).2 ⟨i, hi, ha, rfl⟩
        simp only [asmRstrs, List.map_eq_nil_iff] at hl
        rw [hl] at this
        simp at this
      | cons x xs =>
        have hx : x ∈ asmRstrs (ops j) (P j) := by rw [hl]; simp
        obtain ⟨a, ha', rfl⟩ := List.mem_map.1 hx
        obtain ⟨_, i', hi', hi1, _, hi2⟩ := (asmData_fst (P j) (ops j).inp (P j).inB (ops j).nin).2.2 a ha'
        obtain ⟨ρ, hρ⟩ := h j (by simp) i' hi' hi1
        show ∃ y, strideOf (ops j) a.rid = .ok y
        rw [← hi2, hρ]
        exact ⟨_, rfl⟩
  obtain ⟨x, hx⟩ := hf
  rw [hx, Res.bind_ok]
  have hbad : ∃ k ∈ ks, ∃ ρ, some ρ ∈ asmRstrs (ops k) (P k) ∧
      (((ops k).rstrs ρ).compStride, ((ops k).rstrs ρ).numComp) ≠ x := by
    by_cases h1 : (((ops k).rstrs r).compStride, ((ops k).rstrs r).numComp) = x
    · exact ⟨k', hk', r', hr', fun hh => hne (by rw [h1, hh])⟩
    · exact ⟨k, hk, r, hr, h1⟩
  rcases checkOps_bad ks h hbad with h1 | h1 <;> rw [h1]
  · exact Or.inl rfl
  · exact Or.inr rfl

end Composite
end Verif
