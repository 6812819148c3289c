import Verif.Gpu.OperMid

/-!
# Outputs of an operator on a device (helper lemmas)
-/

namespace Verif.Gpu

open Finset
open Verif.Restriction (TMode RData)
open Verif.Basis (EMode)
open Verif.Operator (VPtr FVec LVec isBasisMode OField Oper Meaning Advances cont)

variable {α : Type} [CommRing α] {dv : Device} {op : GOper α} {S : Meaning α} {D : Dev α} {inv outv : VPtr}
  {V : Nat → LVec α}

theorem ordO_lt {i : Nat} (hi : i < op.nout) : ordO op i < op.nout := orderO_ok.lt i hi

/-- An output without basis stands at its own position. -/
theorem ordO_none (h : GOK dv op S) {o : Nat} (ho : o < op.nout) (hm : (op.out o).mode = .none) : ordO op o = o := by
  refine orderG_pos (n := op.nout) (m0 := (orderIn op).2) (alone := fun _ => false)
    (same := fun i j => (op.out i).same (op.out j)) (len := fun i => op.eSize (op.out i))
    (by rw [rel_out]; exact fun a b h => gsame_symm h) (by rw [rel_out]; exact fun a b c h h' => gsame_trans h h')
    (by rw [rel_out]; exact fun a b h => eSize_same h) ho ?_
  intro i hi k hk hok
  rcases Nat.lt_or_ge o k with h1 | h1
  · exact h.outBetween i o k hi h1 hk hm
  · obtain rfl : k = o := le_antisymm h1 hok
    by_contra hc
    have := h.none_alone (j := i) ho (by omega) hm (gsame_symm (by simpa using hc))
    omega

theorem outSkip_iff (h : GOK dv op S) {s : GSt α} (ht : s.tabs = tabsG op) {f : Nat} (hf : f < op.nout) :
    s.tabs.outSkip f = true ↔ Later op.nout (RO op) f := by
  rw [ht]
  exact (shareOutsG_spec h f hf).1

/-- `CeedBasisApplyAdd` is used if the output before is of the same group. -/
theorem outAdd_iff (h : GOK dv op S) {s : GSt α} (ht : s.tabs = tabsG op) {i : Nat} (hi : i < op.nout) :
    s.tabs.outAdd (ordO op i) = true ↔ 0 < i ∧ Later op.nout (RO op) (ordO op (i - 1)) := by
  rw [ht, show (tabsG op).outAdd (ordO op i) = (shareOutsG op).add (ordO op i) from rfl,
    (shareOutsG_spec h _ (ordO_lt hi)).2.1]
  constructor
  · rintro ⟨j, hj, hs⟩
    rcases orderO_ok.back i hi with h1 | ⟨h0, h1, h2⟩
    · exact absurd hs (h1 j hj)
    · exact ⟨h0, _, ordO_lt hi, h2, h1⟩
  · rintro ⟨h0, hl⟩
    obtain ⟨-, h1, h2⟩ := orderO_ok.fwd (i - 1) (by omega) hl
    rw [show i - 1 + 1 = i by omega] at h1 h2
    exact ⟨_, h2, h1⟩

theorem prev_same {i : Nat} (hi : i < op.nout) (h0 : 0 < i) (hl : Later op.nout (RO op) (ordO op (i - 1))) :
    (op.out (ordO op (i - 1))).same (op.out (ordO op i)) = true := by
  obtain ⟨-, h1, -⟩ := orderO_ok.fwd (i - 1) (by omega) hl
  rw [show i - 1 + 1 = i by omega] at h1
  exact h1

/-- State after the outputs at positions `< i`, except for the contents of vectors. -/
structure OutB (op : GOper α) (S : Meaning α) (inv outv : VPtr) (V : Nat → LVec α) (i : Nat) (s : GSt α) : Prop where
  fix : Fix op S s
  dn : s.done = true
  adv : Advances V s.vecs
  vld : ∀ v, (V v).valid = true → (s.vecs v).valid = true
  keep : ∀ v, (∀ o < op.nout, (op.out o).vec.ptr outv ≠ .vec v) → s.vecs v = V v
  work : (tabsG op).maxLen ≤ (s.ev .work).buf.len
  wrI : ∀ k, (∀ o, k ≠ .out o) → (s.ev k).wr = false
  wrO : ∀ o, (s.ev (.out o)).wr = decide (o < op.nout ∧ (op.out o).mode = .none ∧ i ≤ o)
  rd : ∀ k, (s.ev k).rd = 0
  borO : ∀ o, (s.qOut o).bor = if o < op.nout ∧ (op.out o).mode = .none ∧ i ≤ o then some (.ev (.out o)) else none
  borI : ∀ j < op.nin, (s.qIn j).bor = none
  outs : ∀ j, i ≤ j → j < op.nout → GoodOut op S inv V s (ordO op j)

/-- What the outputs at positions `< i` add. -/
def addedO (op : GOper α) (S : Meaning α) (inv outv : VPtr) (V : Nat → LVec α) (i v t : Nat) : α :=
  ∑ j ∈ range i, if (op.out (ordO op j)).vec.ptr outv = .vec v then
    S.adds op.host (fun v => (V v).buf.val) inv (ordO op j) t else 0

/-- All of it is in the vectors or in the E-vector of the last group. -/
structure OutSt (op : GOper α) (S : Meaning α) (inv outv : VPtr) (V : Nat → LVec α) (i : Nat) (s : GSt α) : Prop where
  base : OutB op S inv outv V i s
  done : (i = 0 ∨ ¬ Later op.nout (RO op) (ordO op (i - 1))) → ∀ v t, (s.vecs v).buf.val t =
    (V v).buf.val t + addedO op S inv outv V i v t
  pend : 0 < i → Later op.nout (RO op) (ordO op (i - 1)) → ∃ k, keyO op (ordO op (i - 1)) = some k ∧
    (s.ev k).valid = true ∧ ∀ v t, (s.vecs v).buf.val t +
      (if (op.out (ordO op (i - 1))).vec.ptr outv = .vec v then
        scatterG (S.dat (op.out (ordO op (i - 1))).host) (s.ev k).buf.val t else 0) =
      (V v).buf.val t + addedO op S inv outv V i v t

theorem out_start {s : GSt α} (hs : MidSt op S inv V op.nout op.nout op.nin s) : OutSt op S inv outv V 0 s := by
  refine ⟨⟨hs.fix, hs.dn, fun v => ⟨by rw [hs.vecs], .inl (by rw [hs.vecs])⟩, fun v hv => by rw [hs.vecs]; exact hv,
    fun v _ => by rw [hs.vecs], hs.work, hs.wrI, fun o => ?_, fun k => ?_, fun o => ?_, fun j hj => hs.borN j hj (.inr hj),
    fun j _ hj => hs.outs _ (ordO_lt hj)⟩, fun _ v t => ?_, fun h0 => absurd h0 (by omega)⟩
  · rw [hs.wrO]; simp
  · have := hs.rd k; omega
  · rw [hs.borO]; simp
  · unfold addedO
    rw [hs.vecs]; simp

theorem addedO_succ (i v t : Nat) : addedO op S inv outv V (i + 1) v t = addedO op S inv outv V i v t +
    if (op.out (ordO op i)).vec.ptr outv = .vec v then
      S.adds op.host (fun v => (V v).buf.val) inv (ordO op i) t else 0 := sum_range_succ _ _

section
variable {i : Nat} {s : GSt α}

/-- The length of the E-vector of an output. -/
theorem OutB.lenO (h : GOK dv op S) {f : Nat} (hf : f < op.nout) (hs : OutB op S inv outv V i s) {k : EKey}
    (hk : keyO op f = some k) : op.eSize (op.out f) ≤ (s.ev k).buf.len := by
  by_cases hm : (op.out f).mode = .none
  · rw [keyO_none h hf hm] at hk
    cases hk
    rw [hs.fix.evOut]
  · rcases keyO_basis h hf ((h.outF hf).2.2.2 hm).1 with e | ⟨e, -⟩
    · rw [hk] at e
      cases e
      exact le_trans (maxOut hf) hs.work
    · rw [hk] at e
      cases e
      rw [hs.fix.evOut, ← eSize_same (lastG_same op hf)]

/-- The contents of the E-vector of the output at position `i` are ready to be restricted. -/
def Pending (op : GOper α) (S : Meaning α) (inv outv : VPtr) (V : Nat → LVec α) (i : Nat) (s : GSt α) : Prop :=
  ∃ k, keyO op (ordO op i) = some k ∧ (s.ev k).valid = true ∧ (s.ev k).wr = false ∧
    ∀ v t, (s.vecs v).buf.val t +
      (if (op.out (ordO op i)).vec.ptr outv = .vec v then
        scatterG (S.dat (op.out (ordO op i)).host) (s.ev k).buf.val t else 0) =
      (V v).buf.val t + addedO op S inv outv V (i + 1) v t

/-- Output without basis. -/
theorem out_none (h : GOK dv op S) (hi : i < op.nout) (hs : OutSt op S inv outv V i s)
    (hm : (op.out (ordO op i)).mode = .none) :
    Tr (giveBack op i (ordO op i)) s fun s' _ => OutB op S inv outv V (i + 1) s' ∧ Pending op S inv outv V i s' := by
  have hf := ordO_lt (op := op) hi
  have hif : i = ordO op i := orderO_ok.inj i hi (ordO op i) hf (ordO_none h hf hm).symm
  obtain ⟨o, ho⟩ : ∃ o, o = ordO op i := ⟨_, rfl⟩
  have hio : i = o := hif.trans ho.symm
  rw [← ho] at hm hf
  unfold giveBack
  rw [← ho, if_pos hm]
  have hb : (s.qOut o).bor = some (.ev (.out o)) := by rw [hs.base.borO, if_pos ⟨hf, hm, by omega⟩]
  rw [hio]
  refine .bind (.get (.bind (.check (by rw [hb]; rfl) (.bind (.mod (.bind (.ptr (b := .out o)
    (by rw [keyOut_eq h hs.base.fix.tabs hf, keyO_none h hf hm]) (.bind (.check ?_ (.mod ?_))))))))))
  · rw [hs.base.wrO]; simp [hf, hm]; omega
  subst hio
  have hgood := hs.base.outs i le_rfl hi
  rw [← ho] at hgood
  have harr : s.arr (s.qOut i) = (s.ev (.out i)).buf := by unfold GSt.arr; rw [hb]
  obtain ⟨hrst, -, hno, -⟩ := h.outF hf
  obtain ⟨hes, hsz⟩ := hno hm
  have hdne' : (S.dat (op.out i).host).ne = op.ne := by
    obtain ⟨r, hrid, -, hdne, -⟩ := hrst
    rw [dat_some S hrid, hdne]
  have hsc : ∀ t, scatterG (S.dat (op.out i).host) (s.ev (.out i)).buf.val t =
      S.adds op.host (fun v => (V v).buf.val) inv i t := by
    refine scatterG_first hdne' fun e he k hk n hn => ?_
    have := hgood.2.2
    rw [harr] at this
    have := elemOut_none hm hdne' hes hsz this he hk hn
    rwa [hdne'] at this
  have hprev : i = 0 ∨ ¬ Later op.nout (RO op) (ordO op (i - 1)) := by
    rcases Nat.eq_zero_or_pos i with h0 | h0
    · exact .inl h0
    · refine .inr fun hl => ?_
      have hps := prev_same hi h0 hl
      rw [← ho] at hps
      have := h.none_alone hf (ordO_lt (by omega)) hm (gsame_symm hps)
      have e2 := ordO_none h hf hm
      have := orderO_ok.inj (i - 1) (by omega) i hi (this.trans e2.symm)
      omega
  set e : EVec α := { s.ev (.out i) with wr := false, valid := true } with he
  have hne : ∀ k, k ≠ .out i → (Function.update s.ev (.out i) e) k = s.ev k := fun k hk => Function.update_of_ne hk _ _
  have hbuf : ∀ k, ((Function.update s.ev (.out i) e) k).buf = (s.ev k).buf := by
    intro k
    by_cases hk : k = .out i
    · subst hk; rw [Function.update_self]
    · rw [hne k hk]
  have hrd : ∀ k, ((Function.update s.ev (.out i) e) k).rd = (s.ev k).rd := by
    intro k
    by_cases hk : k = .out i
    · subst hk; rw [Function.update_self]
    · rw [hne k hk]
  set q : QVec α := { s.qOut i with valid := false, bor := none } with hq
  have hqne : ∀ o, o ≠ i → Function.update s.qOut i q o = s.qOut o := fun o ho => Function.update_of_ne ho _ _
  refine ⟨⟨⟨hs.base.fix.tabs, fun i => by rw [hbuf]; exact hs.base.fix.evIn i, fun i => by rw [hbuf]; exact hs.base.fix.evOut i,
    hs.base.fix.qInLen, fun o' => ?_, hs.base.fix.wts, hs.base.fix.cachedOf rfl rfl fun f =>
      ⟨congrArg EVec.valid (hne (.inp f) (by simp)), congrArg EVec.buf (hne (.inp f) (by simp))⟩⟩, hs.base.dn, hs.base.adv,
    hs.base.vld, hs.base.keep, by rw [hbuf]; exact hs.base.work, fun k hk => ?_, fun o' => ?_, fun k => by
      rw [hrd]; exact hs.base.rd k, fun o' => ?_, hs.base.borI, fun j hj hjn => ?_⟩, ?_⟩
  · show (Function.update s.qOut i q o').buf.len = _
    by_cases h1 : o' = i
    · subst h1; rw [Function.update_self]; exact hs.base.fix.qOutLen o'
    · rw [hqne o' h1]; exact hs.base.fix.qOutLen o'
  · show (Function.update s.ev (.out i) e k).wr = _
    rw [hne k (hk i)]; exact hs.base.wrI k hk
  · show (Function.update s.ev (.out i) e (.out o')).wr = _
    by_cases h1 : o' = i
    · subst h1; rw [Function.update_self]
      show false = _
      simp
    · rw [hne _ (by simpa using h1), hs.base.wrO]
      have : i ≤ o' ↔ i + 1 ≤ o' := by omega
      simp only [this]
  · show (Function.update s.qOut i q o').bor = _
    by_cases h1 : o' = i
    · subst h1; rw [Function.update_self, if_neg (by omega)]
    · rw [hqne _ h1, hs.base.borO]
      have : i ≤ o' ↔ i + 1 ≤ o' := by omega
      simp only [this]
  · have hoi : ordO op j ≠ i := fun e => by
      have := orderO_ok.inj j hjn i hi (e.trans ho)
      omega
    refine goodOut_congr (s := s) (hqne _ hoi) (fun v => ?_) (fun k _ => hbuf k) (hs.base.outs j (by omega) hjn)
    rw [hs.base.borO]; split_ifs <;> simp
  · refine ⟨.out i, by rw [← ho]; exact keyO_none h hf hm, ?_, ?_, fun v t => ?_⟩
    · show (Function.update s.ev (.out i) e (.out i)).valid = true
      rw [Function.update_self]
    · show (Function.update s.ev (.out i) e (.out i)).wr = false
      rw [Function.update_self]
    · show (s.vecs v).buf.val t + (if _ then scatterG _ (Function.update s.ev (.out i) e (.out i)).buf.val t else 0) = _
      rw [hbuf, hs.done hprev, addedO_succ, ← ho, hsc]
      ring

/-- Output with basis. -/
theorem out_basis (h : GOK dv op S) (hD : D.Real dv) (hne : 0 < op.ne) (hi : i < op.nout) (hs : OutSt op S inv outv V i s)
    (hm : (op.out (ordO op i)).mode ≠ .none) :
    Tr (basisOutG op D (ordO op i)) s fun s' _ => OutB op S inv outv V (i + 1) s' ∧ Pending op S inv outv V i s' := by
  have hf := ordO_lt (op := op) hi
  obtain ⟨hrst, -, -, hyes⟩ := h.outF hf
  obtain ⟨hbm, b, hfit, hmul, hadd⟩ := hyes hm
  have heS := hrst.eSize
  have hdne' : (S.dat (op.out (ordO op i)).host).ne = op.ne := by
    obtain ⟨r, hrid, -, hdne, -⟩ := hrst
    rw [dat_some S hrid, hdne]
  obtain ⟨k, hk⟩ : ∃ k, keyO op (ordO op i) = some k := by
    rcases keyO_basis h hf hbm with e | ⟨e, -⟩ <;> exact ⟨_, e⟩
  have hkn : ∀ o < op.nout, (op.out o).mode = .none → k ≠ .out o := by
    rintro o ho hmo rfl
    rcases keyO_basis h hf hbm with e | ⟨e, e2⟩
    · rw [hk] at e; cases e
    · rw [hk] at e
      simp only [Option.some.injEq, EKey.out.injEq] at e
      rw [← e, hmo] at e2
      cases e2
  have hwrk : (s.ev k).wr = false := by
    by_cases hko : ∃ o, k = .out o
    · obtain ⟨o, rfl⟩ := hko
      rw [hs.base.wrO]
      simp only [decide_eq_false_iff_not]
      rintro ⟨h1, h2, -⟩
      exact hkn o h1 h2 rfl
    · exact hs.base.wrI k fun o e => hko ⟨o, e⟩
  have hgood := hs.base.outs i le_rfl hi
  have hbor : (s.qOut (ordO op i)).bor = none := by rw [hs.base.borO, if_neg (fun hh => hm hh.2.1)]
  have harr : s.arr (s.qOut (ordO op i)) = (s.qOut (ordO op i)).buf := by unfold GSt.arr; rw [hbor]
  have hpk : 0 < i → Later op.nout (RO op) (ordO op (i - 1)) → keyO op (ordO op (i - 1)) = keyO op (ordO op i) :=
    fun h0 hl => keyO_same (ordO_lt (by omega)) hf (prev_same hi h0 hl)
  refine .bind (.get (.bind (.ptr hfit.1 (.bind (.ptr (b := k) (by rw [keyOut_eq h hs.base.fix.tabs hf, hk])
    (.bind (.check hgood.1 (.bind (.openE hwrk (hs.base.rd k) (fun ha => ?_) (.bind ?_))))))))))
  · obtain ⟨h0, hl⟩ := (outAdd_iff h hs.base.fix.tabs hi).1 ha
    obtain ⟨k', hk', hv', -⟩ := hs.pend h0 hl
    rw [hpk h0 hl, hk] at hk'
    cases hk'
    exact hv'
  have hlen1 : op.ne * b.bas.nc * b.bas.Q * b.bas.qComp (op.out (ordO op i)).mode ≤ (s.arr (s.qOut (ordO op i))).len := by
    refine le_trans (le_of_eq ?_) hgood.2.1
    rw [hfit.2.2.2.2, hfit.2.2.1, hfit.2.2.2.1]; ring
  have hlen2 : op.ne * b.bas.nc * b.bas.P ≤ (s.ev k).buf.len := by
    refine le_trans (le_of_eq ?_) (hs.base.lenO h hf hk)
    rw [heS, hfit.2.1, hfit.2.2.1]; ring
  -- the launch
  have hlaunch : ∃ w, D.basis s.tick b (s.tabs.outAdd (ordO op i)) op.ne .transpose (op.out (ordO op i)).mode
      (some (s.arr (s.qOut (ordO op i)))) (s.ev k).buf = .ok w ∧ w.len = (s.ev k).buf.len ∧
      ∀ t, scatterG (S.dat (op.out (ordO op i)).host) w.val t =
        (if s.tabs.outAdd (ordO op i) = true then scatterG (S.dat (op.out (ordO op i)).host) (s.ev k).buf.val t else 0) +
          S.adds op.host (fun v => (V v).buf.val) inv (ordO op i) t := by
    by_cases ha : s.tabs.outAdd (ordO op i) = true
    · rw [ha]
      obtain ⟨junk, hout⟩ := hD.basisAdd s.tick b op.ne .transpose (op.out (ordO op i)).mode
        (some (s.arr (s.qOut (ordO op i)))) (s.ev k).buf
      obtain ⟨w, hw1, hw2, t, hw3, hw4, -, -⟩ := hout.of_launches (hadd junk op.ne _ _ hne hlen1 hlen2)
      refine ⟨w, hw1, hw2, fun t' => ?_⟩
      rw [if_pos rfl]
      refine scatterG_next hdne' (fun e he c hc n hn => ?_) t'
      have := hw4 c (by rw [hfit.2.2.1]; exact hc) n (by rw [hfit.2.1]; exact hn) e he
      rw [hfit.2.1] at this
      rw [hw3, this, elemOut_basis hbm hfit hgood.2.2 he hc]
    · have ha' : s.tabs.outAdd (ordO op i) = false := by simpa using ha
      rw [ha']
      obtain ⟨junk, hout⟩ := hD.basis s.tick b op.ne .transpose (op.out (ordO op i)).mode
        (some (s.arr (s.qOut (ordO op i)))) (s.ev k).buf
      obtain ⟨w, hw1, hw2, t, hw3, hw4, -, -⟩ := hout.of_launches (hmul junk op.ne _ _ hne hlen1 hlen2)
      refine ⟨w, hw1, hw2, fun t' => ?_⟩
      rw [if_neg (by simp), zero_add]
      refine scatterG_first hdne' (fun e he c hc n hn => ?_) t'
      have := hw4 c (by rw [hfit.2.2.1]; exact hc) n (by rw [hfit.2.1]; exact hn) e he
      rw [hfit.2.1] at this
      rw [hw3, this, elemOut_basis hbm hfit hgood.2.2 he hc]
  obtain ⟨w, hw1, hw2, hw3⟩ := hlaunch
  refine .launch hw1 (.storeE ?_)
  set e : EVec α := { s.ev k with valid := true, buf := w } with he
  have hune : ∀ k', k' ≠ k → (Function.update s.ev k e) k' = s.ev k' := fun k' hk' => Function.update_of_ne hk' _ _
  have hlen : ∀ k', ((Function.update s.ev k e) k').buf.len = (s.ev k').buf.len := by
    intro k'
    by_cases hk' : k' = k
    · subst hk'; rw [Function.update_self]; exact hw2
    · rw [hune k' hk']
  have hrd : ∀ k', ((Function.update s.ev k e) k').rd = (s.ev k').rd := by
    intro k'
    by_cases hk' : k' = k
    · subst hk'; rw [Function.update_self]
    · rw [hune k' hk']
  have hwr : ∀ k', ((Function.update s.ev k e) k').wr = (s.ev k').wr := by
    intro k'
    by_cases hk' : k' = k
    · subst hk'; rw [Function.update_self]
    · rw [hune k' hk']
  have hkI : ∀ f, EKey.inp f ≠ k := by
    rintro f rfl
    rcases keyO_basis h hf hbm with e | ⟨e, -⟩ <;> rw [hk] at e <;> cases e
  have hpos : ∀ o, (o < op.nout ∧ (op.out o).mode = .none ∧ i ≤ o) ↔ (o < op.nout ∧ (op.out o).mode = .none ∧ i + 1 ≤ o) := by
    intro o
    constructor
    · rintro ⟨h1, h2, h3⟩
      refine ⟨h1, h2, ?_⟩
      rcases Nat.lt_or_ge i o with h4 | h4
      · exact h4
      · obtain rfl : i = o := by omega
        rw [← ordO_none h h1 h2] at h2
        exact absurd h2 hm
    · rintro ⟨h1, h2, h3⟩
      exact ⟨h1, h2, by omega⟩
  refine ⟨⟨⟨hs.base.fix.tabs, fun i => by rw [hlen]; exact hs.base.fix.evIn i, fun i => by rw [hlen]; exact hs.base.fix.evOut i,
    hs.base.fix.qInLen, hs.base.fix.qOutLen, hs.base.fix.wts, hs.base.fix.cachedOf rfl rfl fun f =>
      ⟨congrArg EVec.valid (hune (.inp f) (hkI f)), congrArg EVec.buf (hune (.inp f) (hkI f))⟩⟩, hs.base.dn, hs.base.adv,
    hs.base.vld, hs.base.keep, by rw [hlen]; exact hs.base.work, fun k' hk' => by rw [hwr]; exact hs.base.wrI k' hk',
    fun o' => ?_, fun k' => by rw [hrd]; exact hs.base.rd k', fun o' => ?_, hs.base.borI, fun j hj hjn => ?_⟩, ?_⟩
  · rw [hwr]
    show (s.ev (.out o')).wr = _
    rw [hs.base.wrO]
    simp only [hpos]
  · show (s.qOut o').bor = _
    rw [hs.base.borO]
    simp only [hpos]
  · refine goodOut_congr (s := s) rfl (fun v => ?_) (fun k' hk' => ?_) (hs.base.outs j (by omega) hjn)
    · rw [hs.base.borO]; split_ifs <;> simp
    · rw [hs.base.borO] at hk'
      split_ifs at hk' with hc
      simp only [Option.some.injEq, QSrc.ev.injEq] at hk'
      subst hk'
      show (Function.update s.ev k e (.out (ordO op j))).buf = _
      rw [hune _ (hkn _ hc.1 hc.2.1).symm]
  · refine ⟨k, hk, ?_, ?_, fun v t => ?_⟩
    · show (Function.update s.ev k e k).valid = true
      rw [Function.update_self]
    · show (Function.update s.ev k e k).wr = false
      rw [hwr]; exact hwrk
    · show (s.vecs v).buf.val t + (if _ then scatterG _ (Function.update s.ev k e k).buf.val t else 0) = _
      rw [Function.update_self, show e.buf = w from rfl, hw3, addedO_succ]
      by_cases ha : s.tabs.outAdd (ordO op i) = true
      · rw [if_pos ha]
        obtain ⟨h0, hl⟩ := (outAdd_iff h hs.base.fix.tabs hi).1 ha
        obtain ⟨k', hk', hv', hp⟩ := hs.pend h0 hl
        rw [hpk h0 hl, hk] at hk'
        cases hk'
        have hps := prev_same hi h0 hl
        have := hp v t
        rw [dat_same S hps, (gsame_iff.1 hps).1] at this
        rw [← add_assoc, ← this]
        split_ifs
        · ring
        · ring
      · rw [if_neg ha]
        have hprev : i = 0 ∨ ¬ Later op.nout (RO op) (ordO op (i - 1)) := by
          by_contra hc
          push Not at hc
          exact ha ((outAdd_iff h hs.base.fix.tabs hi).2 ⟨by omega, hc.2⟩)
        rw [hs.done hprev, zero_add, add_assoc]

theorem restrict_out (h : GOK dv op S) (hD : D.Real dv) (hi : i < op.nout) (hs : OutB op S inv outv V (i + 1) s)
    (hp : Pending op S inv outv V i s)
    (hr : ∀ o < op.nout, ∃ r v, (op.out o).rid = some r ∧ (op.out o).vec.ptr outv = .vec v ∧
      (V v).valid = true ∧ (op.rstrs r).base.lSize ≤ (V v).buf.len) :
    Tr (restrictOutG op D outv (ordO op i)) s fun s' _ => OutSt op S inv outv V (i + 1) s' := by
  have hf := ordO_lt (op := op) hi
  obtain ⟨k, hk, hval, hwr, hsum⟩ := hp
  unfold restrictOutG
  refine .bind (.get ?_)
  by_cases hl : Later op.nout (RO op) (ordO op i)
  · rw [if_pos ((outSkip_iff h hs.fix.tabs hf).2 hl)]
    refine .pure ⟨hs, fun hc => ?_, fun _ _ => ?_⟩
    · rcases hc with hc | hc
      · omega
      · exact absurd hl hc
    · rw [Nat.add_sub_cancel]
      exact ⟨k, hk, hval, hsum⟩
  · rw [if_neg (fun hh => hl ((outSkip_iff h hs.fix.tabs hf).1 hh))]
    obtain ⟨r, v, hrid, hv, hvv, hlong⟩ := hr _ hf
    obtain ⟨hrst, hscat, -⟩ := h.outF hf
    have hlen := hs.lenO h hf hk
    rw [hrst.eSize] at hlen
    obtain ⟨r', hrid', -, hdne, -⟩ := hrst
    rw [hrid] at hrid'
    cases hrid'
    rw [dat_some S hrid, ← hdne] at hlen
    refine .bind (.ptr hrid (.bind (.ptr (b := k) (by rw [keyOut_eq h hs.fix.tabs hf, hk]) (.bind (.readE hwr hval
      (.bind (.readV hv (hs.vld v hvv) (.bind (.ptr (b := v) (by rw [hv]; rfl) (.bind ?_))))))))))
    have hll : (op.rstrs r).base.lSize ≤ (s.vecs v).buf.len := by rw [(hs.adv v).1]; exact hlong
    obtain ⟨w, hw1, hw2, t, hw3, hw4⟩ := (hD.rstr s.tick (op.rstrs r) .transpose (s.ev k).buf
      (s.vecs v).buf).of_launches (hscat r hrid _ _ hlen hll)
    refine .launch hw1 (.mod ?_)
    set u : LVec α := ⟨(s.vecs v).state + 2, true, w⟩ with hu
    have hune : ∀ v', v' ≠ v → Function.update s.vecs v u v' = s.vecs v' := fun v' hv' => Function.update_of_ne hv' _ _
    refine ⟨⟨⟨hs.fix.tabs, hs.fix.evIn, hs.fix.evOut, hs.fix.qInLen, hs.fix.qOutLen, hs.fix.wts, fun f h1 h2 h3 v' h4 => ?_⟩,
      hs.dn, fun v' => ?_, fun v' hv' => ?_, fun v' hv' => ?_, hs.work, hs.wrI, hs.wrO, hs.rd, hs.borO, hs.borI,
      fun j hj hjn => ?_⟩, fun _ v' t' => ?_, fun _ hc => absurd hc (by rwa [Nat.add_sub_cancel])⟩
    · have hold := hs.fix.cached f h1 h2 h3 v' h4
      show s.states f ≤ (Function.update s.vecs v u v').state ∧ (s.states f = (Function.update s.vecs v u v').state →
        (Function.update s.vecs v u v').state ≠ 0 → (s.ev (.inp f)).valid = true ∧
        IsGatherG _ (Function.update s.vecs v u v').buf.val (s.ev (.inp f)).buf.val)
      by_cases hv' : v' = v
      · subst hv'
        rw [Function.update_self]
        show _ ≤ (s.vecs v').state + 2 ∧ (_ = (s.vecs v').state + 2 → _)
        have := hold.1
        exact ⟨by omega, fun hh => by omega⟩
      · rw [hune v' hv']; exact hold
    · show (Function.update s.vecs v u v').buf.len = _ ∧ (Function.update s.vecs v u v' = _ ∨ _ < (Function.update s.vecs v u v').state)
      by_cases hv' : v' = v
      · subst hv'
        rw [Function.update_self]
        refine ⟨hw2.trans (hs.adv v').1, .inr ?_⟩
        show _ < (s.vecs v').state + 2
        rcases (hs.adv v').2 with e | e
        · rw [e]; omega
        · omega
      · rw [hune v' hv']; exact hs.adv v'
    · show (Function.update s.vecs v u v').valid = true
      by_cases hvv' : v' = v
      · subst hvv'; rw [Function.update_self]
      · rw [hune v' hvv']; exact hs.vld v' hv'
    · show Function.update s.vecs v u v' = _
      rw [hune v' ?_]
      · exact hs.keep v' hv'
      · rintro rfl
        exact hv' _ hf hv
    · refine goodOut_congr (s := s) rfl (fun v => ?_) (fun _ _ => rfl) (hs.outs j hj hjn)
      rw [hs.borO]; split_ifs <;> simp
    · show (Function.update s.vecs v u v').buf.val t' = _
      rw [← hsum v' t']
      by_cases hv' : v' = v
      · subst hv'
        rw [Function.update_self, if_pos hv]
        show w.val t' = _
        rw [hw3, hw4, dat_some S hrid]
      · rw [hune v' hv', if_neg, add_zero]
        rw [hv]
        exact fun e => hv' (VPtr.vec.inj e).symm

theorem outputs_all (h : GOK dv op S) (hD : D.Real dv) (hne : 0 < op.ne) (hs : OutSt op S inv outv V 0 s)
    (hr : ∀ o < op.nout, ∃ r v, (op.out o).rid = some r ∧ (op.out o).vec.ptr outv = .vec v ∧
      (V v).valid = true ∧ (op.rstrs r).base.lSize ≤ (V v).buf.len) :
    Tr (M.loop op.nout (fun i => do
      let s ← getG
      outputG op D outv i (s.tabs.outOrd.getD i 0))) s fun s' _ => OutSt op S inv outv V op.nout s' := by
  refine Tr.loop (OutSt op S inv outv V) hs fun i hi s' hs' => ?_
  refine .bind (.get ?_)
  rw [hs'.base.fix.tabs]
  show Tr (outputG op D outv i (ordO op i)) s' _
  unfold outputG basisOrNot
  by_cases hm : (op.out (ordO op i)).mode = .none
  · rw [if_pos hm]
    exact .bind (.pure (.bind (Tr.mono (out_none h hi hs' hm) fun s1 _ h1 => restrict_out h hD hi h1.1 h1.2 hr)))
  · rw [if_neg hm, if_pos ((h.outF (ordO_lt hi)).2.2.2 hm).1]
    refine .bind (Tr.mono (out_basis h hD hne hi hs' hm) fun s1 _ h1 => .bind ?_)
    unfold giveBack
    rw [if_neg hm]
    exact .pure (restrict_out h hD hi h1.1 h1.2 hr)
end

/-- Everything is added in the end. -/
theorem out_end {s : GSt α} (hs : OutSt op S inv outv V op.nout s) (v t : Nat) : (s.vecs v).buf.val t =
    (V v).buf.val t + S.action op.host (fun v => (V v).buf.val) inv outv v t := by
  rw [hs.done ?_ v t]
  · congr 1
    exact orderO_ok.sum (fun o => if (op.out o).vec.ptr outv = .vec v then
      S.adds op.host (fun v => (V v).buf.val) inv o t else 0)
  · rcases Nat.eq_zero_or_pos op.nout with h0 | h0
    · exact .inl h0
    · refine .inr fun hl => ?_
      have := (orderO_ok.fwd (op.nout - 1) (by omega) hl).1
      omega

end Verif.Gpu
