import Verif.Operator.DiagPair

/-!
# Assembly of the point block diagonal
-/

namespace Verif
namespace Operator

open Finset
open Restriction (RData Made Rep Variant Rstr)
open Basis (EMode)

variable {α : Type} [CommRing α]

set_option linter.unusedSectionVars false

theorem made_pos {r : Rstr} {l : Int} {D : RData α} (h : Made .plain r 1 l D)
    (ht : r.rtype = .standard ∨ r.rtype = .oriented) : 0 < D.es ∧ 0 < D.nc := by
  cases h with
  | offset h hf hin =>
    obtain ⟨_, h1, h2, _⟩ := Restriction.create_args h
    exact ⟨by exact_mod_cast h1, by exact_mod_cast h2⟩
  | strided h hin =>
    simp only [Restriction.createStrided, Res.bind_eq_ok, Res.check_eq_ok] at h
    obtain ⟨_, _, _, h1, _, h2, _⟩ := h
    exact ⟨by exact_mod_cast h1, by exact_mod_cast h2⟩
  | @blocked checked ne es bs nc cs l offsets o r h hl ho hf hin =>
    obtain ⟨h1, _, h2, _⟩ := Restriction.createBlocked_fields h hl ho
    exact ⟨h1, h2⟩
  | blockedStrided h hin =>
    simp only [Restriction.createBlockedStrided, Res.bind_eq_ok, Res.check_eq_ok] at h
    obtain ⟨_, _, _, _, _, h1, _, _, _, h3, _⟩ := h
    exact ⟨by exact_mod_cast h1, by exact_mod_cast h3⟩

/-- Numbering of the nodes of a restriction: the components of a node are adjacent, or `comp_stride` apart. -/
def Nodes (r : Rstr) (D : RData α) (node : Nat → Nat → Nat) : Prop :=
  ∀ e < D.ne, ∀ m < D.es, ∀ k < D.nc,
    (r.compStride = 1 ∧ D.lidx e m k = node e m * D.nc + k) ∨
    (r.compStride ≠ 1 ∧ D.lidx e m k = node e m + k * r.compStride.toNat ∧ node e m < r.compStride.toNat)

theorem Nodes.pos {r : Rstr} {D : RData α} {node : Nat → Nat → Nat} (h : Nodes r D node) {e m k : Nat} (he : e < D.ne)
    (hm : m < D.es) (hk : k < D.nc) : D.lidx e m k = nodePos r.compStride D.nc (node e m) k := by
  unfold nodePos
  rcases h e he m hm k hk with ⟨h1, h2⟩ | ⟨h1, h2, _⟩
  · rw [if_pos h1, h2]
  · rw [if_neg h1, h2]

/-- Entries determine node and component. -/
theorem Nodes.inj {r : Rstr} {D : RData α} {node : Nat → Nat → Nat} (h : Nodes r D node) {e m k a k' : Nat}
    (he : e < D.ne) (hm : m < D.es) (hk : k < D.nc) (hk' : k' < D.nc) (ha : r.compStride = 1 ∨ a < r.compStride.toNat)
    (hh : D.lidx e m k = nodePos r.compStride D.nc a k') : node e m = a ∧ k = k' := by
  unfold nodePos at hh
  rcases h e he m hm k hk with ⟨h1, h2⟩ | ⟨h1, h2, h3⟩
  · rw [if_pos h1, h2] at hh
    have e1 := div_enc (a := node e m) hk
    have e2 := div_enc (a := a) hk'
    have e3 := mod_enc (a := node e m) hk
    have e4 := mod_enc (a := a) hk'
    rw [hh] at e1 e3
    exact ⟨by rw [← e1, e2], by rw [← e3, e4]⟩
  · rw [if_neg h1, h2] at hh
    have ha := ha.resolve_left h1
    have e1 := div_enc (a := k) h3
    have e2 := div_enc (a := k') ha
    have e3 := mod_enc (a := k) h3
    have e4 := mod_enc (a := k') ha
    rw [Nat.add_comm, hh, Nat.add_comm] at e1 e3
    exact ⟨by rw [← e3, e4], by rw [← e1, e2]⟩

/-- The restriction of the point blocks. -/
theorem pointBlock_offsets {r : Rstr} {l : Int} {D : RData α} (h : Made .plain r 1 l D)
    (ht : r.rtype = .standard ∨ r.rtype = .oriented) {node : Nat → Nat → Nat} (hn : Nodes r D node) (checked : Bool) :
    D.ne * D.es ≤ r.offsets.len ∧
    (∀ e < D.ne, ∀ m < D.es, r.offsets.val (e * D.es + m) = (D.lidx e m 0 : Int)) ∧
    (∀ e < D.ne, ∀ m < D.es, ((node e m + 1) * D.nc : Nat) ≤ r.lSize) ∧
    ∃ rp, (rp.offsets.len = D.ne * D.es ∧
      ∀ e < D.ne, ∀ m < D.es, rp.offsets.val (e * D.es + m) = ((node e m * (D.nc * D.nc) : Nat) : Int)) ∧
      pointBlock checked r = .ok rp ∧ rp.blockSize = 1 ∧ rp.lSize = r.lSize * D.nc ∧
      rp.eSize = D.ne * (D.nc * D.nc) * D.es ∧ ∃ D' : RData α, Rep rp .plain D' ∧ D'.ne = D.ne ∧ D'.es = D.es ∧
        D'.nc = D.nc * D.nc ∧ (∀ e n m, D'.coef e n m = Restriction.idCoef n m) ∧
        ∀ e < D.ne, ∀ m < D.es, ∀ k < D.nc * D.nc, D'.lidx e m k = node e m * (D.nc * D.nc) + k := by
  obtain ⟨p1, p2⟩ := made_pos h ht
  have hr := h.rep.1
  have hbs : r.blockSize = 1 := h.rep.2.1
  have hnb : r.numBlock = D.ne := by rw [hr.nb, hbs]; simp
  have hns : r.rtype ≠ .strided := by rcases ht with ht | ht <;> rw [ht] <;> simp
  have hlen : D.ne * D.es ≤ r.offsets.len := by
    have := hr.cov.offs hns
    rw [hnb, hbs, hr.es, Nat.mul_one] at this
    exact this
  have hoff : ∀ e < D.ne, ∀ m < D.es, r.offsets.val (e * D.es + m) = (D.lidx e m 0 : Int) := by
    intro e he m hm
    have h1 := hr.li e (by rw [hnb]; exact he) 0 (by omega) m hm 0 p2
    have h2 : Restriction.li r r.numComp r.blockSize r.compStride e 0 m 0 = r.offsets.val (e * D.es + m) := by
      unfold Restriction.li
      rcases ht with ht | ht <;> rw [ht] <;> simp only [hbs, hr.es] <;> simp <;> congr 1 <;> omega
    rw [h2] at h1
    rw [h1, hbs]
    congr 2
    omega
  set shift : Int := if r.compStride ≠ 1 then (r.numComp : Int) * r.numComp else r.numComp with hshift
  have hn0 : (r.numElem * r.elemSize).toNat = D.ne * D.es := by
    rw [hr.ne, hr.es]; norm_cast
  set offs : Buf Int := ⟨D.ne * D.es, fun i => if i < D.ne * D.es then r.offsets.val i * shift else 0⟩ with hoffs
  have hcopy : loop (D.ne * D.es) (fun i v => do
      let o ← r.offsets.rd i
      v.wr i (o * shift)) ⟨D.ne * D.es, fun _ => 0⟩ = .ok offs := by
    refine loop_pure (f := fun i => (⟨D.ne * D.es, fun j => if j < i then r.offsets.val j * shift else 0⟩ : Buf Int)) ?_ ?_
    · simp
    · intro i hi
      simp only [Buf.rd_lt (lt_of_lt_of_le hi hlen), Res.bind_ok]
      rw [Buf.wr_lt (by exact hi)]
      congr 2
      funext j
      by_cases hj : j = i
      · subst hj; simp
      · have : j < i + 1 ↔ j < i := by omega
        simp [hj, this]
  have hval : ∀ e < D.ne, ∀ m < D.es, offs.val (e * D.es + m) = ((node e m * (D.nc * D.nc) : Nat) : Int) := by
    intro e he m hm
    simp only [hoffs, if_pos (enc_lt he hm)]
    rw [hoff e he m hm, hshift, hr.nc]
    rcases hn e he m hm 0 p2 with ⟨h1, h2⟩ | ⟨h1, h2, _⟩
    · rw [h2, if_neg (by simp [h1])]; push_cast; ring
    · rw [h2, if_pos h1]; push_cast; ring
  have hrange : ∀ e < D.ne, ∀ m < D.es, ((node e m + 1) * D.nc : Nat) ≤ r.lSize := by
    intro e he m hm
    have h1 := hr.rng e he m hm (D.nc - 1) (by omega)
    obtain ⟨c, hc⟩ : ∃ c, D.nc = c + 1 := ⟨D.nc - 1, by omega⟩
    rcases hn e he m hm (D.nc - 1) (by omega) with ⟨_, h2⟩ | ⟨_, h2, h3⟩
    · rw [h2] at h1
      have : (node e m + 1) * D.nc ≤ node e m * D.nc + (D.nc - 1) + 1 := by rw [Nat.add_mul]; omega
      omega
    · rw [h2] at h1
      have : (node e m + 1) * D.nc ≤ node e m + (D.nc - 1) * r.compStride.toNat + 1 := by
        rw [hc, Nat.add_sub_cancel]
        have := Nat.mul_le_mul_left c (show node e m + 1 ≤ r.compStride.toNat from h3)
        calc (node e m + 1) * (c + 1) = c * (node e m + 1) + (node e m + 1) := by ring
          _ ≤ c * r.compStride.toNat + (node e m + 1) := by omega
          _ = _ := by omega
      omega
  have hin : Restriction.OffsetsInRange D.ne D.es (D.nc * D.nc) 1 (r.lSize * D.nc) offs := by
    intro e he m hm k hk
    rw [hval e he m hm, mul_one]
    refine ⟨by omega, ?_⟩
    have h1 : ((node e m + 1) * D.nc : Nat) * (D.nc : Int) ≤ r.lSize * D.nc :=
      mul_le_mul_of_nonneg_right (hrange e he m hm) (by omega)
    have h2 : node e m * (D.nc * D.nc) + k < (node e m + 1) * D.nc * D.nc := by
      calc _ < node e m * (D.nc * D.nc) + D.nc * D.nc := by omega
        _ = _ := by ring
    have h3 : ((node e m * (D.nc * D.nc) + k : Nat) : Int) < (((node e m + 1) * D.nc * D.nc : Nat) : Int) := by
      exact_mod_cast h2
    push_cast at h1 h3 ⊢
    omega
  have hcheck : ∀ ne' : Int, ne' = D.ne →
      Restriction.checkOffsets checked ne' D.es (D.nc * D.nc) 1 (r.lSize * D.nc) offs = .ok () := by
    rintro _ rfl
    unfold Restriction.checkOffsets
    split
    · have h0 : ((D.ne : Int) * (D.es : Nat)).toNat = D.ne * D.es := by norm_cast
      rw [h0]
      refine loop_pure (f := fun _ => ()) rfl ?_
      intro i hi
      rw [Buf.rd_lt (by exact hi)]
      simp only [Res.bind_ok]
      obtain ⟨h1, h2⟩ := dec_lt hi
      have h3 := hin _ h1 _ h2 0 (Nat.mul_pos p2 p2)
      have h4 := hin _ h1 _ h2 (D.nc * D.nc - 1) (by have := Nat.mul_pos p2 p2; omega)
      rw [dec_eq] at h3 h4
      rw [Res.check_true]
      refine ⟨by simpa using h3.1, ?_⟩
      have := Nat.mul_pos p2 p2
      have h5 : ((D.nc * D.nc - 1 : Nat) : Int) = ((D.nc * D.nc : Nat) : Int) - 1 := by omega
      rw [h5] at h4
      exact h4.2
    · rfl
  have hcr : ∃ rp, Restriction.create checked D.ne D.es ((D.nc * D.nc : Nat) : Int) 1 (r.lSize * D.nc) offs .none =
      .ok rp := by
    unfold Restriction.create
    rw [Res.check_true (by omega), Res.check_true (by exact_mod_cast p1),
      Res.check_true (by exact_mod_cast Nat.mul_pos p2 p2), Res.check_true (Or.inr (by omega))]
    simp only [Res.bind_ok, Restriction.createRef, Int.toNat_natCast, hcheck _ rfl]
    have h0 : ((D.ne : Int) * (D.es : Nat)).toNat = D.ne * D.es := by norm_cast
    simp only [Restriction.copyIn, h0, hoffs, Nat.le_refl, if_true, Res.bind_ok]
    exact ⟨_, rfl⟩
  obtain ⟨rp, hrp⟩ := hcr
  obtain ⟨_, _, _, _, _, f6, f7, _, f9, _, f11, _⟩ := Restriction.create_fields hrp
  refine ⟨hlen, hoff, hrange, rp, ⟨by rw [f11], fun e he m hm => by rw [f11]; exact hval e he m hm⟩, ?_, f9, f6, by rw [f7]; ring, _, Restriction.create_rep hrp .plain trivial (Or.inr hin), rfl, rfl, rfl,
    fun e n m => rfl, ?_⟩
  · unfold pointBlock
    simp only [hn0]
    rw [← hshift, hcopy]
    simp only [Res.bind_ok]
    rw [hr.ne, hr.es, hr.nc, ← hrp]
    push_cast
    rfl
  · intro e he m hm k hk
    show (offs.val (e * D.es + m) + k * 1).toNat = _
    rw [hval e he m hm, mul_one]
    norm_cast

theorem pointBlock_ok {r : Rstr} {l : Int} {D : RData α} (h : Made .plain r 1 l D)
    (ht : r.rtype = .standard ∨ r.rtype = .oriented) {node : Nat → Nat → Nat} (hn : Nodes r D node) (checked : Bool) :
    ∃ rp, pointBlock checked r = .ok rp ∧ rp.blockSize = 1 ∧ rp.lSize = r.lSize * D.nc ∧
      rp.eSize = D.ne * (D.nc * D.nc) * D.es ∧ ∃ D' : RData α, Rep rp .plain D' ∧ D'.ne = D.ne ∧ D'.es = D.es ∧
        D'.nc = D.nc * D.nc ∧ (∀ e n m, D'.coef e n m = Restriction.idCoef n m) ∧
        ∀ e < D.ne, ∀ m < D.es, ∀ k < D.nc * D.nc, D'.lidx e m k = node e m * (D.nc * D.nc) + k := by
  obtain ⟨_, _, _, rp, _, h1⟩ := pointBlock_offsets h ht hn checked
  exact ⟨rp, h1⟩

/-! ## The matrix -/

/-- Entries of the matrix in a point block. -/
theorem form_block {op : Oper α} {p : Prec α} {S : Meaning α} (h : OpOK op S) (hd : DiagOK op p S) {β ρ : Nat}
    {node : Nat → Nat → Nat} (hb : BlockOK op p S β ρ node) (hne : (S.D ρ).ne = op.ne) (v : Buf α) {a co ci : Nat}
    (ha : (op.rstrs ρ).compStride = 1 ∨ a < (op.rstrs ρ).compStride.toNat) (hco : co < (S.D ρ).nc) (hci : ci < (S.D ρ).nc) :
    S.form op v (fun x => if x = nodePos (op.rstrs ρ).compStride (S.D ρ).nc a ci then 1 else 0)
        (nodePos (op.rstrs ρ).compStride (S.D ρ).nc a co) =
      ∑ e ∈ range op.ne, ∑ n ∈ range (S.D ρ).es, if node e n = a then blockSum op p S v (some β) e co n ci n else 0 := by
  have hN : Nodes (op.rstrs ρ) (S.D ρ) node := by
    intro e he m hm k hk
    exact hb.nodes e (by omega) m hm k hk
  have hstep : ∀ e n, (if node e n = a then blockSum op p S v (some β) e co n ci n else 0) =
      ∑ o ∈ range op.nout, if (op.out o).vec = .active then ∑ i ∈ range op.nin, if (op.inp i).vec = .active then
        (if node e n = a then S.kern op v o i e co n ci n else 0) else 0 else 0 := by
    intro e n
    by_cases hh : node e n = a
    · simp only [if_pos hh]
      unfold blockSum
      refine sum_congr rfl (fun o ho => ?_)
      by_cases hao : (op.out o).vec = .active
      · rw [if_pos ⟨hao, (hb.outB o (mem_range.1 ho) hao).1⟩, if_pos hao]
        refine sum_congr rfl (fun i hi => ?_)
        by_cases hai : (op.inp i).vec = .active
        · rw [if_pos ⟨hai, (hb.inB i (mem_range.1 hi) hai).1⟩, if_pos hai]
        · rw [if_neg hai, if_neg (fun hh => hai hh.1)]
      · rw [if_neg hao, if_neg (fun hh => hao hh.1)]
    · simp only [if_neg hh, ite_self, sum_const_zero]
  rw [form_pairs]
  simp only [hstep]
  rw [sum_congr rfl (fun e _ => sum_comm), sum_comm]
  refine sum_congr rfl (fun o ho => ?_)
  rw [mem_range] at ho
  by_cases hao : (op.out o).vec = .active
  swap
  · simp only [if_neg hao, sum_const_zero]
  simp only [if_pos hao]
  rw [sum_congr rfl (fun e _ => sum_comm), sum_comm]
  refine sum_congr rfl (fun i hi => ?_)
  rw [mem_range] at hi
  by_cases hai : (op.inp i).vec = .active
  swap
  · simp only [if_neg hai, sum_const_zero]
  simp only [if_pos hai]
  have hbb : p.inB i = p.outB o := by rw [(hb.inB i hi hai).1, (hb.outB o ho hao).1]
  obtain ⟨σ, s1, s2⟩ := hd.signs h hi ho hai hao hbb
  have hD : S.dat (op.inp i) = S.D ρ := by unfold Meaning.dat; rw [(hb.inB i hi hai).2]; rfl
  rw [pair_same (hd.dat hi ho hai hao hbb) s1 s2]
  · unfold nodal
    rw [hD]
    refine sum_congr rfl (fun e he => ?_)
    rw [mem_range] at he
    rw [sum_eq_single co]
    · refine sum_congr rfl (fun n hn => ?_)
      rw [mem_range] at hn
      by_cases hh : node e n = a
      · rw [if_pos hh, if_pos (by rw [hN.pos (by omega) hn hco, hh]), sum_eq_single ci]
        · rw [if_pos (by rw [hN.pos (by omega) hn hci, hh])]
        · intro k' hk' hne'
          rw [if_neg]
          intro hx
          exact hne' (hN.inj (by omega) hn (mem_range.1 hk') hci ha hx).2
        · intro hx; exact absurd (mem_range.2 hci) hx
      · rw [if_neg hh, if_neg]
        intro hx
        exact hh (hN.inj (by omega) hn hco hco ha hx).1
    · intro k hk hne'
      refine sum_eq_zero (fun n hn => ?_)
      rw [if_neg]
      intro hx
      exact hne' (hN.inj (by omega) (mem_range.1 hn) (mem_range.1 hk) hco ha hx).2
    · intro hx; exact absurd (mem_range.2 hco) hx
  · rw [hD]
    intro e he m hm m' hm' k hk k' hk' e1 e2
    have g1 := hN.inj (by omega) hm hk hco ha e1
    have g2 := hN.inj (by omega) hm' hk' hci ha e2
    have := (hd.same i hi o ho hai hao hbb).2.2
    rw [hD] at this
    refine (this e he m hm m' hm' k hk k hk ?_).1
    rw [hN.pos (by omega) hm hk, hN.pos (by omega) hm' hk, g1.1, g2.1]

/-! ## The run -/

/-- What is added to the point block diagonal. -/
def blockContr (op : Oper α) (p : Prec α) (S : Meaning α) (v : Buf α) (β ρ : Nat) (node : Nat → Nat → Nat) (t : Nat) : α :=
  ∑ e ∈ range op.ne, ∑ k ∈ range ((S.D ρ).nc * (S.D ρ).nc), ∑ n ∈ range (S.D ρ).es,
    if node e n * ((S.D ρ).nc * (S.D ρ).nc) + k = t then
      blockSum op p S v (some β) e (k / (S.D ρ).nc) n (k % (S.D ρ).nc) n else 0

theorem blockContr_at (op : Oper α) (p : Prec α) (S : Meaning α) (v : Buf α) (β ρ : Nat) (node : Nat → Nat → Nat)
    {a co ci : Nat} (hco : co < (S.D ρ).nc) (hci : ci < (S.D ρ).nc) :
    blockContr op p S v β ρ node (a * ((S.D ρ).nc * (S.D ρ).nc) + (co * (S.D ρ).nc + ci)) =
      ∑ e ∈ range op.ne, ∑ n ∈ range (S.D ρ).es, if node e n = a then blockSum op p S v (some β) e co n ci n else 0 := by
  unfold blockContr
  have hk0 := enc_lt hco hci
  refine sum_congr rfl (fun e _ => ?_)
  rw [sum_eq_single (co * (S.D ρ).nc + ci)]
  · refine sum_congr rfl (fun n _ => ?_)
    rw [div_enc hci, mod_enc hci]
    by_cases hh : node e n = a
    · rw [if_pos hh, if_pos (by rw [hh])]
    · rw [if_neg hh, if_neg]
      intro hx
      have e1 := div_enc (a := node e n) hk0
      rw [hx, div_enc hk0] at e1
      exact hh e1.symm
  · intro k hk hne
    refine sum_eq_zero (fun n _ => ?_)
    rw [if_neg]
    intro hx
    have e1 := mod_enc (a := node e n) (mem_range.1 hk)
    rw [hx, mod_enc hk0] at e1
    exact hne e1.symm
  · intro hx; exact absurd (mem_range.2 hk0) hx

/-- The pair of bases adds the point blocks, or fails if the vector holds no data or is too short. -/
theorem diagPair_block {op : Oper α} {p : Prec α} {S : Meaning α} (h : OpOK op S) (hd : DiagOK op p S)
    {ab : ABasis × ABasis} {β ρ i o : Nat} {node : Nat → Nat → Nat} (hb : BlockOK op p S β ρ node)
    (g : GoodPair op p ab (some β) i o ρ) {v : Buf α}
    (hv : v.len = op.ne * op.Q * op.cIn * op.cOut) (checked : Bool) {out : Nat} {s : ASt α} :
    (CanAdd s out (p.inSize * (S.D ρ).nc) → ∃ s', diagPair op p true checked op.cOut v (op.cIn * op.cOut) out ab s = .ok s' () ∧
      Plus out (blockContr op p S v β ρ node) s s') ∧
    (¬ CanAdd s out (p.inSize * (S.D ρ).nc) →
      ∃ c, diagPair op p true checked op.cOut v (op.cIn * op.cOut) out ab s = .err s c) := by
  obtain ⟨⟨l, hm⟩, hne⟩ := g.D h
  obtain ⟨n1, n2, n3⟩ := g.sizes h hd
  have hel : (op.rstrs ρ).numElem.toNat = op.ne := by rw [hm.rep.1.ne, hne]; rfl
  have hls : (op.rstrs ρ).lSize = p.inSize := hd.inSize i g.hi g.ai ρ g.ri
  have hN : Nodes (op.rstrs ρ) (S.D ρ) node := by
    intro e he m hm k hk
    exact hb.nodes e (by omega) m hm k hk
  obtain ⟨rp, q1, q2, q3, q4, D', hr, d1, d2, d3, d4, d5⟩ := pointBlock_ok hm hb.rtype hN checked
  have hes : rp.eSize = op.ne * (p.nc (some β) * p.nc (some β)) * p.P (some β) := by rw [q4, hne, n1, n2]
  obtain ⟨C, hA, hC⟩ := pair_block h hd g.bI g.bO g.mI g.mO hv n3 (L := rp.eSize) hes
  have e1 := hA ⟨rp.eSize, fun _ => 0⟩ rfl
  simp only [zero_add] at e1
  have key : diagPair op p true checked op.cOut v (op.cIn * op.cOut) out ab s =
      liftS (scatterAs .plain rp ⟨rp.eSize, C⟩ out) s := by
    unfold diagPair
    rw [M.bind_apply, M.check, if_pos (by rw [g.dI, g.dO])]
    simp only [Out.bind_ok, g.dI]
    unfold diagWith
    simp only [if_true, hel]
    rw [M.bind_apply]
    simp only [M.lift, q1, Out.bind_ok]
    rw [M.bind_apply]
    simp only [e1]
    rfl
  rw [key, ← hls, ← q3]
  constructor
  · intro hs
    obtain ⟨s', f1, f2⟩ := scatterAs_ok hr (w := ⟨rp.eSize, C⟩) (Nat.le_refl _) hs
    refine ⟨s', f1, f2.congr (fun t => ?_)⟩
    rw [q2, scatter_id d4, d1, d2, d3, hne]
    unfold blockContr
    refine sum_congr rfl (fun e he => sum_congr rfl (fun k hk => sum_congr rfl (fun n hn => ?_)))
    rw [mem_range] at he hk hn
    rw [d5 e (by omega) n hn k hk]
    split
    · obtain ⟨k1, k2⟩ := dec_lt hk
      have := hC e he (k / (S.D ρ).nc) (by rw [n1]; exact k1) (k % (S.D ρ).nc) (by rw [n1]; exact k2) n (by rw [n2]; exact hn)
      rw [← this, n1, n2]
      show C _ = C _
      congr 3
      have hde := dec_eq k (S.D ρ).nc
      calc e * ((S.D ρ).nc * (S.D ρ).nc) + k = e * ((S.D ρ).nc * (S.D ρ).nc) + (k / (S.D ρ).nc * (S.D ρ).nc + k % (S.D ρ).nc) := by
            rw [hde]
        _ = _ := by ring
    · rfl
  · intro hs
    exact scatterAs_err hs

/-- There is one pair of bases. -/
theorem block_pairs {op : Oper α} {p : Prec α} {S : Meaning α} (h : OpOK op S) (hd : DiagOK op p S) {β ρ : Nat}
    {node : Nat → Nat → Nat} (hb : BlockOK op p S β ρ node) : ∃ ab i o,
      basisPairs (asmData p op.inp p.inB op.nin).1 (asmData p op.out p.outB op.nout).1 = [ab] ∧
      GoodPair op p ab (some β) i o ρ := by
  obtain ⟨_, nI, kI, _⟩ := asm_in h hd
  obtain ⟨_, nO, kO, _⟩ := asm_out h hd
  obtain ⟨_, h2, h3⟩ := basisPairs_spec nI nO
  have key : ∀ ab ∈ basisPairs (asmData p op.inp p.inB op.nin).1 (asmData p op.out p.outB op.nout).1,
      ab.1.bid = some β ∧ ∃ i o, GoodPair op p ab (some β) i o ρ := by
    intro ab hab
    obtain ⟨i, o, r, g⟩ := pairs_good h hd hab
    obtain ⟨x1, x2⟩ := hb.inB i g.hi g.ai
    have hr : r = ρ := by have := g.ri; rw [x2] at this; cases this; rfl
    have hbid : ab.1.bid = some β := by rw [← g.xi, x1]
    subst hr
    rw [hbid] at g
    exact ⟨hbid, i, o, g⟩
  have hmem : some β ∈ (basisPairs (asmData p op.inp p.inB op.nin).1 (asmData p op.out p.outB op.nout).1).map
      (fun ab => ab.1.bid) := by
    rw [h3]
    obtain ⟨i, hi, ai⟩ := hb.some
    obtain ⟨o, ho, ao⟩ := hb.someO
    exact ⟨(kI _).2 ⟨i, hi, ai, (hb.inB i hi ai).1⟩, (kO _).2 ⟨o, ho, ao, (hb.outB o ho ao).1⟩⟩
  generalize basisPairs (asmData p op.inp p.inB op.nin).1 (asmData p op.out p.outB op.nout).1 = l at *
  match l, key, h2, hmem with
  | [], _, _, hm => simp at hm
  | [ab], key, _, _ =>
    obtain ⟨_, i, o, g⟩ := key ab (by simp)
    exact ⟨ab, i, o, rfl, g⟩
  | a :: b :: l, key, h2, _ =>
    rw [List.map_cons, List.nodup_cons] at h2
    refine absurd ?_ h2.1
    rw [(key a (by simp)).1]
    simp [(key b (by simp)).1]

end Operator
end Verif
