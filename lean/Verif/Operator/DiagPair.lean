import Verif.Operator.DiagRun

/-!
# Assembly of the diagonal: one pair of bases
-/

namespace Verif
namespace Operator

open Finset
open Restriction (RData Made Rep Variant Rstr)
open Basis (EMode)

variable {α : Type} [CommRing α]

set_option linter.unusedSectionVars false

/-- A pair of bases the code finds. -/
structure GoodPair (op : Oper α) (p : Prec α) (ab : ABasis × ABasis) (bid : Option Nat) (i o r : Nat) : Prop where
  bI : ab.1.bid = bid
  bO : ab.2.bid = bid
  mI : ab.1.modes = modesOf p op.inp p.inB bid op.nin
  mO : ab.2.modes = modesOf p op.out p.outB bid op.nout
  hi : i < op.nin
  ai : (op.inp i).vec = .active
  xi : p.inB i = bid
  ri : (op.inp i).rid = some r
  ho : o < op.nout
  ao : (op.out o).vec = .active
  xo : p.outB o = bid
  ro : (op.out o).rid = some r
  dI : ab.1.rid = some r
  dO : ab.2.rid = some r

theorem asm_in {op : Oper α} {p : Prec α} {S : Meaning α} (h : OpOK op S) (hd : DiagOK op p S) :
    (asmData p op.inp p.inB op.nin).2 = offset op.inp op.nin ∧ ((asmData p op.inp p.inB op.nin).1.map ABasis.bid).Nodup ∧
    (∀ k, k ∈ (asmData p op.inp p.inB op.nin).1.map ABasis.bid ↔ ∃ i < op.nin, (op.inp i).vec = .active ∧ p.inB i = k) ∧
    (∀ a ∈ (asmData p op.inp p.inB op.nin).1, a.modes = modesOf p op.inp p.inB a.bid op.nin ∧
      ∃ i < op.nin, (op.inp i).vec = .active ∧ p.inB i = a.bid ∧ (op.inp i).rid = a.rid) :=
  asmData_spec p op.inp p.inB op.nin (fun i hi ha => ⟨((h.inp i hi).active ha).2.2.1, (hd.fieldIn h hi ha).size⟩)

theorem asm_out {op : Oper α} {p : Prec α} {S : Meaning α} (h : OpOK op S) (hd : DiagOK op p S) :
    (asmData p op.out p.outB op.nout).2 = offset op.out op.nout ∧ ((asmData p op.out p.outB op.nout).1.map ABasis.bid).Nodup ∧
    (∀ k, k ∈ (asmData p op.out p.outB op.nout).1.map ABasis.bid ↔ ∃ i < op.nout, (op.out i).vec = .active ∧ p.outB i = k) ∧
    (∀ a ∈ (asmData p op.out p.outB op.nout).1, a.modes = modesOf p op.out p.outB a.bid op.nout ∧
      ∃ i < op.nout, (op.out i).vec = .active ∧ p.outB i = a.bid ∧ (op.out i).rid = a.rid) :=
  asmData_spec p op.out p.outB op.nout (fun o ho ha => ⟨(h.out o ho).active.2.2.1, (hd.fieldOut h ho ha).size⟩)

theorem pairs_good {op : Oper α} {p : Prec α} {S : Meaning α} (h : OpOK op S) (hd : DiagOK op p S) {ab : ABasis × ABasis}
    (hab : ab ∈ basisPairs (asmData p op.inp p.inB op.nin).1 (asmData p op.out p.outB op.nout).1) :
    ∃ i o r, GoodPair op p ab ab.1.bid i o r := by
  obtain ⟨_, nI, _, sI⟩ := asm_in h hd
  obtain ⟨_, nO, _, sO⟩ := asm_out h hd
  obtain ⟨h1, h2, h3⟩ := (basisPairs_spec nI nO).1 ab hab
  obtain ⟨mI, i, hi, ai, xi, ri⟩ := sI _ h1
  obtain ⟨mO, o, ho, ao, xo, ro⟩ := sO _ h2
  obtain ⟨r, l, hr, _⟩ := ((h.inp i hi).active ai).1
  have hsame := (hd.same i hi o ho ai ao (by rw [xi, xo, h3])).1
  refine ⟨i, o, r, rfl, h3.symm, mI, by rw [h3]; exact mO, hi, ai, xi, hr, ho, ao, by rw [xo, h3], by rw [← hsame, hr],
    by rw [← ri, hr], by rw [← ro, ← hsame, hr]⟩

/-- What a pair of bases adds to the diagonal. -/
def contr (op : Oper α) (p : Prec α) (S : Meaning α) (v : Buf α) (bid : Option Nat) (t : Nat) : α :=
  ∑ o ∈ range op.nout, if (op.out o).vec = .active ∧ p.outB o = bid then
    ∑ i ∈ range op.nin, if (op.inp i).vec = .active ∧ p.inB i = bid then nodal op S v o i t t else 0
  else 0

/-- All fields with the basis of a pair have its restriction. -/
theorem GoodPair.dat {op : Oper α} {p : Prec α} {S : Meaning α} (hd : DiagOK op p S) {ab : ABasis × ABasis}
    {bid : Option Nat} {i o r : Nat} (g : GoodPair op p ab bid i o r) {j : Nat} (hj : j < op.nin)
    (ha : (op.inp j).vec = .active) (hb : p.inB j = bid) : (op.inp j).rid = some r ∧ S.dat (op.inp j) = S.D r := by
  have h1 := (hd.same j hj o g.ho ha g.ao (by rw [hb, g.xo])).1
  have h2 : (op.inp j).rid = some r := by rw [h1, g.ro]
  exact ⟨h2, by unfold Meaning.dat; rw [h2]; rfl⟩

theorem GoodPair.D {op : Oper α} {p : Prec α} {S : Meaning α} (h : OpOK op S) {ab : ABasis × ABasis}
    {bid : Option Nat} {i o r : Nat} (g : GoodPair op p ab bid i o r) :
    (∃ l, Made .plain (op.rstrs r) 1 l (S.D r)) ∧ (S.D r).ne = op.ne := by
  obtain ⟨r', l, hr, hm, hn⟩ := ((h.inp i g.hi).active g.ai).1
  rw [g.ri] at hr
  cases hr
  exact ⟨⟨l, hm⟩, hn⟩

/-- Scattering element values of nodes. -/
theorem scatter_id {D' : RData α} (hc : ∀ e n m, D'.coef e n m = Restriction.idCoef n m) (w : Nat → α) (t : Nat) :
    D'.scatter 1 w t = ∑ e ∈ range D'.ne, ∑ k ∈ range D'.nc, ∑ n ∈ range D'.es,
      if D'.lidx e n k = t then w ((e * D'.nc + k) * D'.es + n) else 0 := by
  unfold RData.scatter
  refine sum_congr rfl (fun e _ => sum_congr rfl (fun k _ => sum_congr rfl (fun n hn => ?_)))
  rw [sum_eq_single n]
  · rw [hc, Restriction.ePos_one]
    unfold Restriction.idCoef
    have : e * D'.nc * D'.es + k * D'.es + n = (e * D'.nc + k) * D'.es + n := by ring
    rw [if_pos rfl, one_mul, this]
  · intro m _ hne
    rw [hc]
    unfold Restriction.idCoef
    simp [hne]
  · intro hh; exact absurd hn hh

theorem contr_eq {op : Oper α} {p : Prec α} {S : Meaning α} (hd : DiagOK op p S) {ab : ABasis × ABasis}
    {bid : Option Nat} {i o r : Nat} (g : GoodPair op p ab bid i o r) (v : Buf α) (t : Nat) :
    (∑ e ∈ range op.ne, ∑ k ∈ range (S.D r).nc, ∑ n ∈ range (S.D r).es,
      if (S.D r).lidx e n k = t then blockSum op p S v bid e k n k n else 0) = contr op p S v bid t := by
  have hstep : ∀ e k n, (if (S.D r).lidx e n k = t then blockSum op p S v bid e k n k n else 0) =
      ∑ o ∈ range op.nout, ∑ i ∈ range op.nin, if (S.D r).lidx e n k = t then
        (if (op.out o).vec = .active ∧ p.outB o = bid then if (op.inp i).vec = .active ∧ p.inB i = bid then
          S.kern op v o i e k n k n else 0 else 0) else 0 := by
    intro e k n
    split
    · unfold blockSum
      refine sum_congr rfl (fun o _ => ?_)
      split
      · rfl
      · rw [sum_const_zero]
    · simp only [sum_const_zero]
  simp only [hstep]
  rw [sum_congr rfl (fun e _ => sum_congr rfl (fun k _ => sum_comm)), sum_congr rfl (fun e _ => sum_comm), sum_comm]
  unfold contr
  refine sum_congr rfl (fun o ho => ?_)
  rw [sum_congr rfl (fun e _ => sum_congr rfl (fun k _ => sum_comm)), sum_congr rfl (fun e _ => sum_comm), sum_comm]
  by_cases hao : (op.out o).vec = .active ∧ p.outB o = bid
  · simp only [if_pos hao]
    refine sum_congr rfl (fun j hj => ?_)
    rw [mem_range] at hj
    by_cases haj : (op.inp j).vec = .active ∧ p.inB j = bid
    · simp only [if_pos haj]
      unfold nodal
      have hsame := hd.same j hj o (mem_range.1 ho) haj.1 hao.1 (by rw [haj.2, hao.2])
      rw [(g.dat hd (S := S) hj haj.1 haj.2).2] at hsame ⊢
      refine sum_congr rfl (fun e he => sum_congr rfl (fun k hk => sum_congr rfl (fun n hn => ?_)))
      rw [mem_range] at he hk hn
      split
      · rename_i ht
        rw [sum_eq_single k]
        · rw [if_pos ht]
        · intro k' hk' hne
          rw [if_neg]
          intro hh
          exact hne (hsame.2.2 e he n hn n hn k' (mem_range.1 hk') k hk (hh.trans ht.symm)).2
        · intro hh; exact absurd (mem_range.2 hk) hh
      · rfl
    · simp only [if_neg haj, ite_self, sum_const_zero]
  · simp only [if_neg hao, ite_self, sum_const_zero]

theorem GoodPair.sizes {op : Oper α} {p : Prec α} {S : Meaning α} (h : OpOK op S) (hd : DiagOK op p S)
    {ab : ABasis × ABasis} {bid : Option Nat} {i o r : Nat} (g : GoodPair op p ab bid i o r) :
    p.nc bid = (S.D r).nc ∧ p.P bid = (S.D r).es ∧ p.Q bid = op.Q := by
  have f := hd.fieldIn h g.hi g.ai
  rw [g.xi] at f
  have := (g.dat hd (S := S) g.hi g.ai g.xi).2
  rw [← this]
  exact ⟨f.nc, f.P, f.Q⟩

/-- One pair of bases adds its contribution if the vector holds data and is long enough, and fails otherwise. -/
theorem diagPair_ok {op : Oper α} {p : Prec α} {S : Meaning α} (h : OpOK op S) (hd : DiagOK op p S)
    {ab : ABasis × ABasis} {bid : Option Nat} {i o r : Nat} (g : GoodPair op p ab bid i o r) {v : Buf α}
    (hv : v.len = op.ne * op.Q * op.cIn * op.cOut) (checked : Bool) {out : Nat} {s : ASt α} :
    (CanAdd s out p.inSize → ∃ s', diagPair op p false checked op.cOut v (op.cIn * op.cOut) out ab s = .ok s' () ∧
      Plus out (contr op p S v bid) s s') ∧
    (¬ CanAdd s out p.inSize → ∃ c, diagPair op p false checked op.cOut v (op.cIn * op.cOut) out ab s = .err s c) := by
  obtain ⟨⟨l, hm⟩, hne⟩ := g.D h
  have hcurl := (hd.same i g.hi o g.ho g.ai g.ao (by rw [g.xi, g.xo])).2.1 r g.ri
  obtain ⟨D', σ, hr, d1, d2, d3, d4, d5, _⟩ := unsigned_rep hm hcurl
  obtain ⟨n1, n2, n3⟩ := g.sizes h hd
  have hbs : (op.rstrs r).blockSize = 1 := hm.rep.2.1
  have hel : (op.rstrs r).numElem.toNat = op.ne := by rw [hr.ne, d1, hne]; rfl
  have hnb : (op.rstrs r).numBlock = op.ne := by rw [hr.nb, hbs, d1, hne]; simp
  have hes : (op.rstrs r).eSize = op.ne * p.nc bid * p.P bid := by
    rw [hr.esz, hnb, d2, d3, hbs, n1, n2, Nat.mul_one]
  have hls : (op.rstrs r).lSize = p.inSize := hd.inSize i g.hi g.ai r g.ri
  obtain ⟨C, hA, hC⟩ := pair_diag h hd g.bI g.bO g.mI g.mO hv n3 (L := (op.rstrs r).eSize) hes
  have e1 := hA ⟨(op.rstrs r).eSize, fun _ => 0⟩ rfl
  simp only [zero_add] at e1
  have key : diagPair op p false checked op.cOut v (op.cIn * op.cOut) out ab s =
      liftS (scatterAs .unsigned (op.rstrs r) ⟨(op.rstrs r).eSize, C⟩ out) s := by
    unfold diagPair
    rw [M.bind_apply, M.check, if_pos (by rw [g.dI, g.dO])]
    simp only [Out.bind_ok, g.dI]
    unfold diagWith
    simp only [Bool.false_eq_true, if_false, hel]
    rw [M.bind_apply]
    simp only [M.lift, e1]
    rfl
  rw [key]
  constructor
  · intro hs
    rw [← hls] at hs
    obtain ⟨s', f1, f2⟩ := scatterAs_ok hr (w := ⟨(op.rstrs r).eSize, C⟩) (Nat.le_refl _) hs
    refine ⟨s', f1, f2.congr (fun t => ?_)⟩
    rw [hbs, scatter_id d5, d1, d2, d3, d4, ← contr_eq hd g, hne]
    refine sum_congr rfl (fun e he => sum_congr rfl (fun k hk => sum_congr rfl (fun n hn => ?_)))
    rw [mem_range] at he hk hn
    split
    · rw [← n1, ← n2]
      exact hC e he k (by rw [n1]; exact hk) n (by rw [n2]; exact hn)
    · rfl
  · intro hs
    rw [← hls] at hs
    exact scatterAs_err hs

/-- Sum over the pairs. -/
theorem contr_sum {op : Oper α} {p : Prec α} {S : Meaning α} (h : OpOK op S) (hd : DiagOK op p S) (v : Buf α) (t : Nat) :
    ((basisPairs (asmData p op.inp p.inB op.nin).1 (asmData p op.out p.outB op.nout).1).map
      (fun ab => contr op p S v ab.1.bid t)).sum = S.form op v (fun x => if x = t then 1 else 0) t := by
  obtain ⟨_, nI, kI, _⟩ := asm_in h hd
  obtain ⟨_, nO, kO, _⟩ := asm_out h hd
  obtain ⟨_, h2, h3⟩ := basisPairs_spec nI nO
  rw [form_diag h hd]
  have := sum_pairs (α := α) h2 op.nout op.nin (fun o => (op.out o).vec = .active) (fun i => (op.inp i).vec = .active) p.outB
    p.inB (fun o ho i hi ao ai hh => (h3 _).2 ⟨(kI _).2 ⟨i, hi, ai, rfl⟩, (kO _).2 ⟨o, ho, ao, hh⟩⟩)
    (fun o i => nodal op S v o i t t)
  rw [← this, List.map_map]
  rfl

end Operator
end Verif
