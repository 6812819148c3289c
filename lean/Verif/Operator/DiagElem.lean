import Verif.Operator.DiagLemmas

/-!
# Element diagonals and point blocks
-/

namespace Verif
namespace Operator

open Finset
open Restriction (RData Made Rep Variant Rstr)
open Basis (EMode)

variable {α : Type} [CommRing α]

set_option linter.unusedSectionVars false

theorem diagTerms_adds {nc P Q nOut : Nat} {D : Buf α} {sz : Nat} {Bt B : Buf α} {bt b co ci e L : Nat}
    (hD : ∀ k < nc, ∀ q < Q, q + ((ci + k) * nOut + co + k) * Q + e * (Q * sz) < D.len)
    (hBt : bt * Q * P + Q * P ≤ Bt.len) (hB : b * Q * P + Q * P ≤ B.len) (hL : (e + 1) * nc * P ≤ L) :
    Adds (diagTerms nc P Q nOut D Q sz Bt B bt b co ci e) L (fun j => ∑ k ∈ range nc, ∑ q ∈ range Q, ∑ n ∈ range P,
      if j = (e * nc + k) * P + n then Bt.val (bt * Q * P + (q * P + n)) *
        D.val (q + ((ci + k) * nOut + co + k) * Q + e * (Q * sz)) * B.val (b * Q * P + (q * P + n)) else 0) := by
  unfold diagTerms
  refine Adds.loop (fun k hk => Adds.loop (fun q hq => ?_))
  refine Adds.of_eq (f' := fun v => Verif.loop P (fun n v => v.addAt ((e * nc + k) * P + n)
    (Bt.val (bt * Q * P + (q * P + n)) * D.val (q + ((ci + k) * nOut + co + k) * Q + e * (Q * sz)) *
      B.val (b * Q * P + (q * P + n)))) v) (Adds.loop (fun n hn => Adds.addAt ?_ _)) ?_
  · have h1 : (e * nc + k) * P + n < (e * nc + nc) * P := enc_lt (by omega) hn
    have h2 : (e * nc + nc) * P = (e + 1) * nc * P := by ring
    omega
  · intro v _
    unfold qfAt
    rw [Buf.rd_lt (hD k hk q hq), Res.bind_ok]
    refine loop_congr (fun n hn w => ?_)
    have hqn : q * P + n < Q * P := enc_lt hq hn
    rw [Buf.rd_lt (show bt * Q * P + (q * P + n) < Bt.len by omega), Res.bind_ok,
      Buf.rd_lt (show b * Q * P + (q * P + n) < B.len by omega), Res.bind_ok]

theorem blockTerms_adds {nc P Q nOut : Nat} {D : Buf α} {sz : Nat} {Bt B : Buf α} {bt b co ci e L : Nat}
    (hD : ∀ k < nc, ∀ k' < nc, ∀ q < Q, q + ((ci + k') * nOut + co + k) * Q + e * (Q * sz) < D.len)
    (hBt : bt * Q * P + Q * P ≤ Bt.len) (hB : b * Q * P + Q * P ≤ B.len) (hL : (e + 1) * (nc * nc) * P ≤ L) :
    Adds (blockTerms nc P Q nOut D Q sz Bt B bt b co ci e) L (fun j => ∑ k ∈ range nc, ∑ q ∈ range Q,
      ∑ k' ∈ range nc, ∑ n ∈ range P,
      if j = ((e * nc + k) * nc + k') * P + n then Bt.val (bt * Q * P + (q * P + n)) *
        D.val (q + ((ci + k') * nOut + co + k) * Q + e * (Q * sz)) * B.val (b * Q * P + (q * P + n)) else 0) := by
  unfold blockTerms
  refine Adds.loop (fun k hk => Adds.loop (fun q hq => Adds.loop (fun k' hk' => ?_)))
  refine Adds.of_eq (f' := fun v => Verif.loop P (fun n v => v.addAt (((e * nc + k) * nc + k') * P + n)
    (Bt.val (bt * Q * P + (q * P + n)) * D.val (q + ((ci + k') * nOut + co + k) * Q + e * (Q * sz)) *
      B.val (b * Q * P + (q * P + n)))) v) (Adds.loop (fun n hn => Adds.addAt ?_ _)) ?_
  · have h0 : (e * nc + k) * nc + k' < (e * nc + nc) * nc := enc_lt (by omega) hk'
    have h1 : ((e * nc + k) * nc + k') * P + n < (e * nc + nc) * nc * P := enc_lt h0 hn
    have h2 : (e * nc + nc) * nc * P = (e + 1) * (nc * nc) * P := by ring
    omega
  · intro v _
    unfold qfAt
    rw [Buf.rd_lt (hD k hk k' hk' q hq), Res.bind_ok]
    refine loop_congr (fun n hn w => ?_)
    have hqn : q * P + n < Q * P := enc_lt hq hn
    rw [Buf.rd_lt (show bt * Q * P + (q * P + n) < Bt.len by omega), Res.bind_ok,
      Buf.rd_lt (show b * Q * P + (q * P + n) < B.len by omega), Res.bind_ok]

theorem enc_inj {P a b n m : Nat} (hn : n < P) (hm : m < P) (h : a * P + n = b * P + m) : a = b ∧ n = m := by
  have h1 : (a * P + n) / P = a := by rw [Nat.mul_comm, Nat.mul_add_div (by omega), Nat.div_eq_of_lt hn, Nat.add_zero]
  have h2 : (b * P + m) / P = b := by rw [Nat.mul_comm, Nat.mul_add_div (by omega), Nat.div_eq_of_lt hm, Nat.add_zero]
  have : a = b := by rw [← h1, ← h2, h]
  subst this
  exact ⟨rfl, by omega⟩

/-- Value at one position of a sum over positions. -/
theorem sum_at_diag {nc P Q e e0 k0 n0 : Nat} (hk : k0 < nc) (hn : n0 < P) (X : Nat → Nat → Nat → α) :
    (∑ k ∈ range nc, ∑ q ∈ range Q, ∑ n ∈ range P,
      if (e0 * nc + k0) * P + n0 = (e * nc + k) * P + n then X k q n else 0) =
      if e = e0 then ∑ q ∈ range Q, X k0 q n0 else 0 := by
  by_cases he : e = e0
  · subst he
    rw [if_pos rfl, sum_eq_single k0]
    · refine sum_congr rfl (fun q _ => ?_)
      rw [sum_eq_single n0]
      · simp
      · intro n hn' hne
        rw [if_neg]
        intro hh
        exact hne (enc_inj hn (mem_range.1 hn') hh).2.symm
      · intro hh; exact absurd (mem_range.2 hn) hh
    · intro k hk' hne
      refine sum_eq_zero (fun q _ => sum_eq_zero (fun n hn' => ?_))
      rw [if_neg]
      intro hh
      have := (enc_inj hn (mem_range.1 hn') hh).1
      omega
    · intro hh; exact absurd (mem_range.2 hk) hh
  · rw [if_neg he]
    refine sum_eq_zero (fun k hk' => sum_eq_zero (fun q _ => sum_eq_zero (fun n hn' => ?_)))
    rw [if_neg]
    intro hh
    have h1 := (enc_inj hn (mem_range.1 hn') hh).1
    exact he (enc_inj hk (mem_range.1 hk') h1).1.symm

theorem sum_at_block {nc P Q e e0 k0 k1 n0 : Nat} (hk : k0 < nc) (hk1 : k1 < nc) (hn : n0 < P)
    (X : Nat → Nat → Nat → Nat → α) :
    (∑ k ∈ range nc, ∑ q ∈ range Q, ∑ k' ∈ range nc, ∑ n ∈ range P,
      if ((e0 * nc + k0) * nc + k1) * P + n0 = ((e * nc + k) * nc + k') * P + n then X k q k' n else 0) =
      if e = e0 then ∑ q ∈ range Q, X k0 q k1 n0 else 0 := by
  have hz : ∀ {k q k'}, ¬ (e0 = e ∧ k0 = k ∧ k1 = k') → k < nc → k' < nc → (∑ n ∈ range P,
      if ((e0 * nc + k0) * nc + k1) * P + n0 = ((e * nc + k) * nc + k') * P + n then X k q k' n else 0) = 0 := by
    intro k q k' hne h1 h2
    refine sum_eq_zero (fun n hn' => ?_)
    rw [if_neg]
    intro hh
    have g1 := (enc_inj hn (mem_range.1 hn') hh).1
    obtain ⟨g2, g3⟩ := enc_inj hk1 h2 g1
    obtain ⟨g4, g5⟩ := enc_inj hk h1 g2
    exact hne ⟨g4, g5, g3⟩
  by_cases he : e = e0
  · subst he
    rw [if_pos rfl, sum_eq_single k0]
    · refine sum_congr rfl (fun q _ => ?_)
      rw [sum_eq_single k1]
      · rw [sum_eq_single n0]
        · simp
        · intro n hn' hne
          rw [if_neg]
          intro hh
          exact hne (enc_inj hn (mem_range.1 hn') hh).2.symm
        · intro hh; exact absurd (mem_range.2 hn) hh
      · intro k' hk' hne
        exact hz (fun hh => hne hh.2.2.symm) hk (mem_range.1 hk')
      · intro hh; exact absurd (mem_range.2 hk1) hh
    · intro k hk' hne
      exact sum_eq_zero (fun q _ => sum_eq_zero (fun k' hk'' =>
        hz (fun hh => hne hh.2.1.symm) (mem_range.1 hk') (mem_range.1 hk'')))
    · intro hh; exact absurd (mem_range.2 hk) hh
  · rw [if_neg he]
    exact sum_eq_zero (fun k hk' => sum_eq_zero (fun q _ => sum_eq_zero (fun k' hk'' =>
      hz (fun hh => he hh.1.symm) (mem_range.1 hk') (mem_range.1 hk''))))

/-- Values of the matrix of a mode. -/
def ptrVal (p : Prec α) (bid : Option Nat) (m : EMode) : Nat → α :=
  match basisPtr p bid m ⟨0, fun _ => 0⟩ with
  | .ok b => b.val
  | _ => fun _ => 0

/-- What is known about a basis that is in both tables. -/
structure Field (op : Oper α) (p : Prec α) (S : Meaning α) (a : OField α) (bid : Option Nat) (m : Buf α) : Prop where
  ptr : ∃ b, (∀ x, basisPtr p bid a.mode x = .ok b) ∧ b.val = m.val ∧ p.qComp bid a.mode * (op.Q * p.P bid) ≤ b.len
  val : ptrVal p bid a.mode = m.val
  nc : p.nc bid = (S.dat a).nc
  P : p.P bid = (S.dat a).es
  Q : p.Q bid = op.Q
  qc : p.qComp bid a.mode = a.qc
  size : a.size = p.qComp bid a.mode * p.nc bid
  mode : a.mode ≠ .none ∧ a.mode ≠ .weight

theorem field_aux {op : Oper α} {p : Prec α} {S : Meaning α} {a : OField α} {bid : Option Nat} {m : Buf α}
    (hb : HasBasis op p S a bid m) (hw : a.mode ≠ .weight)
    (hf : a.mode ≠ .none → a.mode ≠ .weight → ∃ b, Fits op S a b) : Field op p S a bid m := by
  obtain ⟨hn, b, rfl, h1, m', h2, h3, h4⟩ := hb
  obtain ⟨b', f1, f2, f3, f4, f5⟩ := hf hn hw
  have hbb : b' = p.bas b := by rw [h1] at f1; exact (Option.some.inj f1).symm
  subst hbb
  refine ⟨⟨m', h2, h3, ?_⟩, ?_, f3, f2, f4, ?_, ?_, hn, hw⟩
  · simp only [Prec.qComp, Prec.P]
    rw [f2, ← Nat.mul_assoc]; exact h4
  · unfold ptrVal; rw [h2]; exact h3
  · simp only [Prec.qComp, OField.qc, h1]
  · simp only [Prec.qComp, Prec.nc]
    rw [f5, f3, Nat.mul_comm]

theorem DiagOK.fieldIn {op : Oper α} {p : Prec α} {S : Meaning α} (h : OpOK op S) (hd : DiagOK op p S) {i : Nat}
    (hi : i < op.nin) (ha : (op.inp i).vec = .active) : Field op p S (op.inp i) (p.inB i) (S.mIn i) := by
  refine field_aux (hd.inB i hi ha) ((h.inp i hi).active ha).2.2.1 (fun h1 h2 => ?_)
  have := h.inp i hi
  unfold InOK at this
  rcases hm : (op.inp i).mode with _ | _ | _ | _ | _ | _ <;> simp only [hm] at this
  case none => exact absurd hm h1
  case weight => exact absurd hm h2
  all_goals exact ⟨this.2.choose, this.2.choose_spec.1⟩

theorem DiagOK.fieldOut {op : Oper α} {p : Prec α} {S : Meaning α} (h : OpOK op S) (hd : DiagOK op p S) {o : Nat}
    (ho : o < op.nout) (ha : (op.out o).vec = .active) : Field op p S (op.out o) (p.outB o) (S.mOut o) := by
  refine field_aux (hd.outB o ho ha) (h.out o ho).active.2.2.1 (fun h1 h2 => ?_)
  have := h.out o ho
  unfold OutOK at this
  rcases hm : (op.out o).mode with _ | _ | _ | _ | _ | _ <;> simp only [hm] at this
  case none => exact absurd hm h1
  all_goals exact ⟨this.2.choose, this.2.choose_spec.1⟩

/-- Index into the assembled QFunction. -/
theorem qf_index {op : Oper α} {i o e c c' nc k k' q : Nat} :
    q + ((offset op.inp i + c' * nc + k') * op.cOut + (offset op.out o + c * nc) + k) * op.Q +
      e * (op.Q * (op.cIn * op.cOut)) = op.apos e i (c' * nc + k') o (c * nc + k) q := by
  unfold Oper.apos; ring

theorem qf_bound {op : Oper α} {i o e x y q : Nat} (he : e < op.ne) (hi : i < op.nin) (ha : (op.inp i).vec = .active)
    (hx : x < (op.inp i).size) (ho : o < op.nout) (hao : (op.out o).vec = .active) (hy : y < (op.out o).size)
    (hq : q < op.Q) : op.apos e i x o y q < op.ne * op.Q * op.cIn * op.cOut := by
  unfold Oper.apos
  have h1 : e * op.cIn + (offset op.inp i + x) < op.ne * op.cIn := enc_lt he (offset_add_lt op.inp hi ha hx)
  have h2 := enc_lt h1 (offset_add_lt op.out ho hao hy)
  have h3 := enc_lt h2 hq
  calc _ < op.ne * op.cIn * op.cOut * op.Q := h3
    _ = _ := by ring

/-- The loops over elements and modes. -/
theorem pairTerms_adds {op : Oper α} {p : Prec α} {S : Meaning α} (h : OpOK op S) (hd : DiagOK op p S) {pb : Bool}
    {a b : ABasis} {bid : Option Nat} (hai : a.bid = bid) (hbi : b.bid = bid) (ham : a.modes = modesOf p op.inp p.inB bid op.nin)
    (hbm : b.modes = modesOf p op.out p.outB bid op.nout) {nOut : Nat} {D : Buf α} {sz L : Nat}
    {C : EMode × Nat × Nat → EMode × Nat × Nat → Nat → Nat → α}
    (hC : ∀ e < op.ne, ∀ o < op.nout, (op.out o).vec = .active → p.outB o = bid → ∀ c < p.qComp bid (op.out o).mode,
      ∀ i < op.nin, (op.inp i).vec = .active → p.inB i = bid → ∀ c' < p.qComp bid (op.inp i).mode, ∀ Bt B,
      Bt.val = ptrVal p bid (op.out o).mode → p.qComp bid (op.out o).mode * (op.Q * p.P bid) ≤ Bt.len →
      B.val = ptrVal p bid (op.inp i).mode → p.qComp bid (op.inp i).mode * (op.Q * p.P bid) ≤ B.len →
      Adds (fun v => if pb then blockTerms (p.nc bid) (p.P bid) (p.Q bid) nOut D op.Q sz Bt B c c' (offset op.out o + c * p.nc bid)
          (offset op.inp i + c' * p.nc bid) e v
        else diagTerms (p.nc bid) (p.P bid) (p.Q bid) nOut D op.Q sz Bt B c c' (offset op.out o + c * p.nc bid)
          (offset op.inp i + c' * p.nc bid) e v) L
        (C ((op.out o).mode, offset op.out o + c * p.nc bid, c) ((op.inp i).mode, offset op.inp i + c' * p.nc bid, c') e)) :
    Adds (pairTerms p pb a b nOut D op.Q sz op.ne) L (fun j => ∑ e ∈ range op.ne,
      ((dirModes p op.out p.outB bid op.nout).map (fun mo =>
        ((dirModes p op.inp p.inB bid op.nin).map (fun mi => C mo mi e j)).sum)).sum) := by
  have wI : ∀ i < op.nin, (op.inp i).vec = .active → (op.inp i).mode ≠ .weight := fun i hi ha =>
    ((h.inp i hi).active ha).2.2.1
  have wO : ∀ o < op.nout, (op.out o).vec = .active → (op.out o).mode ≠ .weight := fun o ho _ => (h.out o ho).active.2.2.1
  unfold pairTerms
  simp only [hai, hbi]
  refine Adds.loop (fun e he => ?_)
  rw [ham, hbm, (dirs_modesOf bid hd.sepOut wO).1, (dirs_modesOf bid hd.sepIn wI).1]
  refine Adds.loopL (fun mo hmo => ?_)
  obtain ⟨o, ho, hao, hbo, c, hc, rfl⟩ := mem_dirModes hmo
  have fo := hd.fieldOut h ho hao
  rw [hbo] at fo
  obtain ⟨Bt, e1, e2, e3⟩ := fo.ptr
  refine Adds.of_eq (f' := Operator.loopL (dirModes p op.inp p.inB bid op.nin) _) (Adds.loopL (body := fun mi v => do
      let B ← basisPtr p bid mi.1 (ident (p.P bid) (p.Q bid))
      if pb then blockTerms (p.nc bid) (p.P bid) (p.Q bid) nOut D op.Q sz Bt B c mi.2.2 (offset op.out o + c * p.nc bid) mi.2.1 e v
      else diagTerms (p.nc bid) (p.P bid) (p.Q bid) nOut D op.Q sz Bt B c mi.2.2 (offset op.out o + c * p.nc bid) mi.2.1 e v)
      (fun mi hmi => ?_)) ?_
  · obtain ⟨i, hi, hai', hbi', c', hc', rfl⟩ := mem_dirModes hmi
    have fi := hd.fieldIn h hi hai'
    rw [hbi'] at fi
    obtain ⟨B, g1, g2, g3⟩ := fi.ptr
    refine Adds.of_eq (hC e he o ho hao hbo c hc i hi hai' hbi' c' hc' Bt B (by rw [fo.val, e2]) e3 (by rw [fi.val, g2]) g3) ?_
    intro v _
    simp only [g1, Res.bind_ok]
  · intro v _
    simp only [e1, Res.bind_ok]

/-- The element matrix in terms of the matrices of the modes. -/
theorem kern_eq {op : Oper α} {p : Prec α} {S : Meaning α} {v : Buf α} {o i : Nat} {bid : Option Nat}
    (fo : Field op p S (op.out o) bid (S.mOut o)) (fi : Field op p S (op.inp i) bid (S.mIn i)) (e k n k' n' : Nat) :
    S.kern op v o i e k n k' n' = ∑ c ∈ range (p.qComp bid (op.out o).mode), ∑ c' ∈ range (p.qComp bid (op.inp i).mode),
      ∑ q ∈ range op.Q, ptrVal p bid (op.out o).mode (c * op.Q * p.P bid + (q * p.P bid + n)) *
        v.val (op.apos e i (c' * p.nc bid + k') o (c * p.nc bid + k) q) *
        ptrVal p bid (op.inp i).mode (c' * op.Q * p.P bid + (q * p.P bid + n')) := by
  unfold Meaning.kern Meaning.bOut Meaning.bIn
  simp only [if_neg fo.mode.1, if_neg fi.mode.1]
  rw [← fo.qc, ← fi.qc, ← fo.nc, ← fi.nc, ← fo.P, ← fi.P, fo.val, fi.val]
  refine sum_congr rfl (fun c _ => sum_congr rfl (fun c' _ => sum_congr rfl (fun q _ => ?_)))
  congr 2
  · congr 1
    ring_nf
  · ring

/-- Sum of the element matrices of the fields of a basis. -/
def blockSum (op : Oper α) (p : Prec α) (S : Meaning α) (v : Buf α) (bid : Option Nat) (e k n k' n' : Nat) : α :=
  ∑ o ∈ range op.nout, if (op.out o).vec = .active ∧ p.outB o = bid then
    ∑ i ∈ range op.nin, if (op.inp i).vec = .active ∧ p.inB i = bid then S.kern op v o i e k n k' n' else 0
  else 0

theorem blockSum_eq {op : Oper α} {p : Prec α} {S : Meaning α} (h : OpOK op S) (hd : DiagOK op p S) (v : Buf α)
    (bid : Option Nat) (e k n k' n' : Nat) :
    ((dirModes p op.out p.outB bid op.nout).map (fun mo => ((dirModes p op.inp p.inB bid op.nin).map (fun mi =>
      ∑ q ∈ range op.Q, ptrVal p bid mo.1 (mo.2.2 * op.Q * p.P bid + (q * p.P bid + n)) *
        v.val (q + ((mi.2.1 + k') * op.cOut + mo.2.1 + k) * op.Q + e * (op.Q * (op.cIn * op.cOut))) *
        ptrVal p bid mi.1 (mi.2.2 * op.Q * p.P bid + (q * p.P bid + n')))).sum)).sum =
    blockSum op p S v bid e k n k' n' := by
  rw [sum_dirModes]
  unfold blockSum
  refine sum_congr rfl (fun o ho => ?_)
  split
  · rename_i hao
    simp only [sum_dirModes]
    rw [sum_comm]
    refine sum_congr rfl (fun i hi => ?_)
    by_cases hai : (op.inp i).vec = .active ∧ p.inB i = bid
    · have fo := hd.fieldOut h (mem_range.1 ho) hao.1
      have fi := hd.fieldIn h (mem_range.1 hi) hai.1
      rw [hao.2] at fo; rw [hai.2] at fi
      simp only [if_pos hai]
      rw [kern_eq fo fi]
      refine sum_congr rfl (fun c _ => sum_congr rfl (fun c' _ => sum_congr rfl (fun q _ => ?_)))
      rw [← qf_index]
    · simp only [if_neg hai, sum_const_zero]
  · rfl

/-- Element diagonals of a pair of bases. -/
theorem pair_diag {op : Oper α} {p : Prec α} {S : Meaning α} (h : OpOK op S) (hd : DiagOK op p S)
    {a b : ABasis} {bid : Option Nat} (hai : a.bid = bid) (hbi : b.bid = bid) (ham : a.modes = modesOf p op.inp p.inB bid op.nin)
    (hbm : b.modes = modesOf p op.out p.outB bid op.nout) {v : Buf α} (hv : v.len = op.ne * op.Q * op.cIn * op.cOut)
    (hQ : p.Q bid = op.Q) {L : Nat} (hL : L = op.ne * p.nc bid * p.P bid) :
    ∃ C, Adds (pairTerms p false a b op.cOut v op.Q (op.cIn * op.cOut) op.ne) L C ∧
      ∀ e < op.ne, ∀ k < p.nc bid, ∀ n < p.P bid, C ((e * p.nc bid + k) * p.P bid + n) = blockSum op p S v bid e k n k n := by
  refine ⟨_, pairTerms_adds h hd hai hbi ham hbm (C := fun mo mi e j => ∑ k ∈ range (p.nc bid), ∑ q ∈ range op.Q,
    ∑ n ∈ range (p.P bid), if j = (e * p.nc bid + k) * p.P bid + n then
      ptrVal p bid mo.1 (mo.2.2 * op.Q * p.P bid + (q * p.P bid + n)) *
        v.val (q + ((mi.2.1 + k) * op.cOut + mo.2.1 + k) * op.Q + e * (op.Q * (op.cIn * op.cOut))) *
        ptrVal p bid mi.1 (mi.2.2 * op.Q * p.P bid + (q * p.P bid + n)) else 0) ?_, ?_⟩
  · intro e he o ho hao hbo c hc i hi hia hib c' hc' Bt B b1 b2 b3 b4
    have fo := hd.fieldOut h ho hao
    have fi := hd.fieldIn h hi hia
    rw [hbo] at fo; rw [hib] at fi
    rw [hQ]
    simp only [Bool.false_eq_true, if_false]
    rw [← b1, ← b3]
    refine diagTerms_adds ?_ ?_ ?_ ?_
    · intro k hk q hq
      rw [qf_index, hv]
      exact qf_bound he hi hia (by rw [fi.size]; exact enc_lt hc' hk) ho hao (by rw [fo.size]; exact enc_lt hc hk) hq
    · refine le_trans ?_ b2
      have := Nat.mul_le_mul_right (op.Q * p.P bid) (show c + 1 ≤ _ from hc)
      calc _ = (c + 1) * (op.Q * p.P bid) := by ring
        _ ≤ _ := this
    · refine le_trans ?_ b4
      have := Nat.mul_le_mul_right (op.Q * p.P bid) (show c' + 1 ≤ _ from hc')
      calc _ = (c' + 1) * (op.Q * p.P bid) := by ring
        _ ≤ _ := this
    · rw [hL]
      exact Nat.mul_le_mul_right _ (Nat.mul_le_mul_right _ he)
  · intro e he k hk n hn
    simp only [sum_at_diag hk hn]
    rw [sum_eq_single e]
    · simp only [if_true]
      exact blockSum_eq h hd v bid e k n k n
    · intro e' _ hne
      simp only [if_neg hne]
      exact list_sum_zero _ _ (fun _ _ => list_sum_zero _ _ (fun _ _ => rfl))
    · intro hh; exact absurd (mem_range.2 he) hh

/-- Element point blocks. -/
theorem pair_block {op : Oper α} {p : Prec α} {S : Meaning α} (h : OpOK op S) (hd : DiagOK op p S)
    {a b : ABasis} {bid : Option Nat} (hai : a.bid = bid) (hbi : b.bid = bid) (ham : a.modes = modesOf p op.inp p.inB bid op.nin)
    (hbm : b.modes = modesOf p op.out p.outB bid op.nout) {v : Buf α} (hv : v.len = op.ne * op.Q * op.cIn * op.cOut)
    (hQ : p.Q bid = op.Q) {L : Nat} (hL : L = op.ne * (p.nc bid * p.nc bid) * p.P bid) :
    ∃ C, Adds (pairTerms p true a b op.cOut v op.Q (op.cIn * op.cOut) op.ne) L C ∧
      ∀ e < op.ne, ∀ k < p.nc bid, ∀ k' < p.nc bid, ∀ n < p.P bid,
        C (((e * p.nc bid + k) * p.nc bid + k') * p.P bid + n) = blockSum op p S v bid e k n k' n := by
  refine ⟨_, pairTerms_adds h hd hai hbi ham hbm (C := fun mo mi e j => ∑ k ∈ range (p.nc bid), ∑ q ∈ range op.Q,
    ∑ k' ∈ range (p.nc bid), ∑ n ∈ range (p.P bid), if j = ((e * p.nc bid + k) * p.nc bid + k') * p.P bid + n then
      ptrVal p bid mo.1 (mo.2.2 * op.Q * p.P bid + (q * p.P bid + n)) *
        v.val (q + ((mi.2.1 + k') * op.cOut + mo.2.1 + k) * op.Q + e * (op.Q * (op.cIn * op.cOut))) *
        ptrVal p bid mi.1 (mi.2.2 * op.Q * p.P bid + (q * p.P bid + n)) else 0) ?_, ?_⟩
  · intro e he o ho hao hbo c hc i hi hia hib c' hc' Bt B b1 b2 b3 b4
    have fo := hd.fieldOut h ho hao
    have fi := hd.fieldIn h hi hia
    rw [hbo] at fo; rw [hib] at fi
    rw [hQ]
    simp only [if_true]
    rw [← b1, ← b3]
    refine blockTerms_adds ?_ ?_ ?_ ?_
    · intro k hk k' hk' q hq
      rw [qf_index, hv]
      exact qf_bound he hi hia (by rw [fi.size]; exact enc_lt hc' hk') ho hao (by rw [fo.size]; exact enc_lt hc hk) hq
    · refine le_trans ?_ b2
      have := Nat.mul_le_mul_right (op.Q * p.P bid) (show c + 1 ≤ _ from hc)
      calc _ = (c + 1) * (op.Q * p.P bid) := by ring
        _ ≤ _ := this
    · refine le_trans ?_ b4
      have := Nat.mul_le_mul_right (op.Q * p.P bid) (show c' + 1 ≤ _ from hc')
      calc _ = (c' + 1) * (op.Q * p.P bid) := by ring
        _ ≤ _ := this
    · rw [hL]
      exact Nat.mul_le_mul_right _ (Nat.mul_le_mul_right _ he)
  · intro e he k hk k' hk' n hn
    simp only [sum_at_block hk hk' hn]
    rw [sum_eq_single e]
    · simp only [if_true]
      exact blockSum_eq h hd v bid e k n k' n
    · intro e' _ hne
      simp only [if_neg hne]
      exact list_sum_zero _ _ (fun _ _ => list_sum_zero _ _ (fun _ _ => rfl))
    · intro hh; exact absurd (mem_range.2 he) hh

end Operator
end Verif
