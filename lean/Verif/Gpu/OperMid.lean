import Verif.Gpu.OperIn
import Mathlib.Algebra.Order.BigOperators.Group.Finset

/-!
# The QFunction of an operator on a device (helper lemmas)
-/

namespace Verif.Gpu

open Finset
open Verif.Restriction (TMode RData)
open Verif.Basis (EMode)
open Verif.Operator (VPtr FVec LVec isBasisMode OField Oper Meaning Advances cont)

variable {α : Type} [CommRing α] {dv : Device} {op : GOper α} {S : Meaning α} {D : Dev α} {inv : VPtr} {V : Nat → LVec α}

/-! ## Keys of outputs -/

/-- The E-vector of output `f`. -/
def keyO (op : GOper α) (f : Nat) : Option EKey :=
  match ownOut op f with
  | some k => some (.out k)
  | none => if (op.out f).vec = .active then some .work else none

theorem keyOut_eq (h : GOK dv op S) {s : GSt α} (ht : s.tabs = tabsG op) {f : Nat} (hf : f < op.nout) :
    s.keyOut op f = keyO op f := by
  unfold GSt.keyOut keyO
  rw [ht, show (tabsG op).outOwn f = (shareOutsG op).own f from rfl, (shareOutsG_spec h f hf).2.2]
  cases ownOut op f <;> rfl

theorem keyO_same {i j : Nat} (hi : i < op.nout) (hj : j < op.nout) (h : (op.out i).same (op.out j) = true) :
    keyO op i = keyO op j := by
  unfold keyO ownOut
  rw [lastG_congr op hi hj h, (gsame_iff.1 h).1]

/-- An output without basis shares with no other output. -/
theorem GOK.none_alone (h : GOK dv op S) {f j : Nat} (hf : f < op.nout) (hj : j < op.nout) (hm : (op.out f).mode = .none)
    (hs : (op.out f).same (op.out j) = true) : j = f := by
  by_contra hc
  have := h.outShare f hf j hj (fun e => hc e.symm) hs
  rw [hm] at this
  cases this

theorem lastG_none (h : GOK dv op S) {f : Nat} (hf : f < op.nout) (hm : (op.out f).mode = .none) : lastG op f = f :=
  h.none_alone hf (lastG_lt op hf) hm (gsame_symm (lastG_same op hf))

theorem ownOut_none (h : GOK dv op S) {f : Nat} (hf : f < op.nout) (hm : (op.out f).mode = .none) :
    ownOut op f = some f := by
  unfold ownOut
  rw [lastG_none h hf hm, if_pos]
  rw [h.makes_out hf, hm]
  rintro ⟨-, hc⟩
  cases hc

theorem keyO_none (h : GOK dv op S) {f : Nat} (hf : f < op.nout) (hm : (op.out f).mode = .none) :
    keyO op f = some (.out f) := by
  unfold keyO
  rw [ownOut_none h hf hm]

/-- The key of an output with basis. -/
theorem keyO_basis (h : GOK dv op S) {f : Nat} (hf : f < op.nout) (hm : isBasisMode (op.out f).mode = true) :
    (keyO op f = some .work) ∨ (keyO op f = some (.out (lastG op f)) ∧ isBasisMode (op.out (lastG op f)).mode = true) := by
  have hlb : isBasisMode (op.out (lastG op f)).mode = true := by
    by_cases hl : lastG op f = f
    · rw [hl]; exact hm
    · exact h.outShare _ (lastG_lt op hf) f hf hl (lastG_same op hf)
  unfold keyO ownOut
  by_cases hmk : GOper.makesOut (op.out (lastG op f)) = true
  · rw [if_pos hmk]
    exact .inr ⟨rfl, hlb⟩
  · rw [if_neg hmk]
    rw [h.makes_out (lastG_lt op hf)] at hmk
    push Not at hmk
    rw [(gsame_iff.1 (lastG_same op hf)).1] at hmk
    exact .inl (if_pos hmk.1)

/-! ## Outputs are borrowed, the QFunction is called, inputs are restored -/

/-- The array of output `o` is right. -/
def GoodOut (op : GOper α) (S : Meaning α) (inv : VPtr) (V : Nat → LVec α) (s : GSt α) (o : Nat) : Prop :=
  ((s.qOut o).bor.isSome = true ∨ (s.qOut o).valid = true) ∧ op.ne * op.Q * (op.out o).size ≤ (s.arr (s.qOut o)).len ∧
    OutVals op S (fun v => (V v).buf.val) inv o (s.arr (s.qOut o)).val

theorem goodOut_congr {s s' : GSt α} {o : Nat} (hq : s'.qOut o = s.qOut o) (hv : ∀ v, (s.qOut o).bor ≠ some (.vec v))
    (he : ∀ k, (s.qOut o).bor = some (.ev k) → (s'.ev k).buf = (s.ev k).buf) (h : GoodOut op S inv V s o) :
    GoodOut op S inv V s' o := by
  have ha : s'.arr (s'.qOut o) = s.arr (s.qOut o) := by
    rw [hq]
    unfold GSt.arr
    cases hb : (s.qOut o).bor with
    | none => rfl
    | some x =>
      cases x with
      | ev k => exact he k hb
      | vec v => exact absurd hb (hv v)
  unfold GoodOut
  rw [ha, hq]
  exact h

/-- Cached gathers do not depend on anything else. -/
theorem Fix.cachedOf {s s' : GSt α} (hs : Fix op S s) (hst : s'.states = s.states) (hv : s'.vecs = s.vecs)
    (he : ∀ f, (s'.ev (.inp f)).valid = (s.ev (.inp f)).valid ∧ (s'.ev (.inp f)).buf = (s.ev (.inp f)).buf) :
    ∀ f < op.nin, op.makesIn (op.inp f) = true → lead op.inp f = f → ∀ v, (op.inp f).vec = .vec v →
    s'.states f ≤ (s'.vecs v).state ∧ (s'.states f = (s'.vecs v).state → (s'.vecs v).state ≠ 0 →
      (s'.ev (.inp f)).valid = true ∧ IsGatherG (S.dat (op.inp f).host) (s'.vecs v).buf.val (s'.ev (.inp f)).buf.val) := by
  intro f h1 h2 h3 v h4
  rw [hst, hv, (he f).1, (he f).2]
  exact hs.cached f h1 h2 h3 v h4

/-- State when `nb` outputs are borrowed, `ng` are computed and `nr` inputs are restored. -/
structure MidSt (op : GOper α) (S : Meaning α) (inv : VPtr) (V : Nat → LVec α) (nb ng nr : Nat) (s : GSt α) : Prop where
  fix : Fix op S s
  vecs : s.vecs = V
  dn : s.done = true
  work : (tabsG op).maxLen ≤ (s.ev .work).buf.len
  wrI : ∀ k, (∀ o, k ≠ .out o) → (s.ev k).wr = false
  wrO : ∀ o, (s.ev (.out o)).wr = decide (o < nb ∧ (op.out o).mode = .none)
  rd : ∀ k, (s.ev k).rd + ∑ j ∈ range nr, reads op k j = ∑ j ∈ range op.nin, reads op k j
  borO : ∀ o, (s.qOut o).bor = if o < nb ∧ (op.out o).mode = .none then some (.ev (.out o)) else none
  borS : ∀ j < op.nin, nr ≤ j → (op.inp j).mode = .none → (s.qIn j).bor = some (srcI op inv j)
  borN : ∀ j < op.nin, (op.inp j).mode ≠ .none ∨ j < nr → (s.qIn j).bor = none
  good : nr = 0 → ∀ j < op.nin, GoodIn op S inv s j
  outs : ∀ o < ng, GoodOut op S inv V s o

theorem mid_start {s : GSt α} (hs : InSt op S inv V op.nin s) : MidSt op S inv V 0 0 0 s := by
  refine ⟨hs.fix, hs.vecs, hs.dn, hs.work, fun k _ => hs.wr k, fun o => by rw [hs.wr]; simp, fun k => ?_,
    fun o => by rw [hs.qout]; simp, fun j hj _ hm => ?_, fun j hj hh => ?_, fun _ j hj => ?_, fun o ho => absurd ho (by omega)⟩
  · rw [range_zero, sum_empty, Nat.add_zero, hs.rd]
    exact orderI_ok.sum (fun j => reads op k j)
  · obtain ⟨p, hp, rfl⟩ := orderI_ok.pos hj
    exact hs.borS p hp hm
  · rcases hh with h1 | h1
    · exact hs.borN j hj (.inl h1)
    · omega
  · obtain ⟨p, hp, rfl⟩ := orderI_ok.pos hj
    exact hs.vals p hp

theorem MidSt.borO_vec {nb ng nr : Nat} {s : GSt α} (hs : MidSt op S inv V nb ng nr s) (o v : Nat) :
    (s.qOut o).bor ≠ some (.vec v) := by
  rw [hs.borO]
  split_ifs <;> simp

theorem reads_out (o j : Nat) : reads op (.out o) j = 0 := by
  unfold reads
  rw [if_neg]
  exact fun hh => keyI_ne_out _ _ hh.2

theorem MidSt.rdO {nb ng nr : Nat} {s : GSt α} (hs : MidSt op S inv V nb ng nr s) (o : Nat) : (s.ev (.out o)).rd = 0 := by
  have := hs.rd (.out o)
  rw [sum_eq_zero fun j _ => reads_out o j, sum_eq_zero fun j _ => reads_out o j] at this
  exact this

/-- Changing the E-vector of an output does not matter to inputs. -/
theorem MidSt.good_of {nb ng : Nat} {s s' : GSt α} (hs : MidSt op S inv V nb ng 0 s) (hq : s'.qIn = s.qIn)
    (hv : s'.vecs = s.vecs) (he : ∀ k, (∀ o, k ≠ .out o) → (s'.ev k).buf = (s.ev k).buf) :
    ∀ j < op.nin, GoodIn op S inv s' j := by
  intro j hj
  refine goodIn_congr (by rw [hq]) hv (fun k hb => he k ?_) (hs.good rfl j hj)
  rintro o rfl
  have hm : (op.inp j).mode = .none := by
    by_contra hc
    rw [hs.borN j hj (.inl hc)] at hb
    cases hb
  rw [hs.borS j hj (Nat.zero_le _) hm] at hb
  unfold srcI at hb
  split at hb
  · rename_i e
    simp only [Option.some.injEq, QSrc.ev.injEq] at hb
    rw [hb] at e
    exact keyI_ne_out _ _ e
  · cases hb

theorem borrow_step (h : GOK dv op S) {o : Nat} (ho : o < op.nout) {s : GSt α} (hs : MidSt op S inv V o 0 0 s) :
    Tr (borrowOut op o) s fun s' _ => MidSt op S inv V (o + 1) 0 0 s' := by
  unfold borrowOut
  by_cases hm : (op.out o).mode = .none
  · rw [if_pos hm]
    have hown : s.tabs.outOwn o = some o := by
      rw [hs.fix.tabs, show (tabsG op).outOwn o = (shareOutsG op).own o from rfl, (shareOutsG_spec h o ho).2.2,
        ownOut_none h ho hm]
    refine .bind (.get (.bind (.ptr hown (.bind (.openE (by rw [hs.wrO]; simp) (hs.rdO o) (fun h => absurd h (by simp))
      (.bind (.mod (.mod ?_))))))))
    have hne : ∀ k, k ≠ .out o → (Function.update s.ev (.out o) { s.ev (.out o) with wr := true }) k = s.ev k :=
      fun k hk => Function.update_of_ne hk _ _
    have hbuf : ∀ k, ((Function.update s.ev (.out o) { s.ev (.out o) with wr := true }) k).buf = (s.ev k).buf := by
      intro k
      by_cases hk : k = .out o
      · subst hk; rw [Function.update_self]
      · rw [hne k hk]
    have hrd : ∀ k, ((Function.update s.ev (.out o) { s.ev (.out o) with wr := true }) k).rd = (s.ev k).rd := by
      intro k
      by_cases hk : k = .out o
      · subst hk; rw [Function.update_self]
      · rw [hne k hk]
    refine ⟨⟨hs.fix.tabs, fun i => by rw [hbuf]; exact hs.fix.evIn i, fun i => by rw [hbuf]; exact hs.fix.evOut i,
      hs.fix.qInLen, fun o' => ?_, hs.fix.wts, hs.fix.cachedOf rfl rfl fun f => ⟨congrArg EVec.valid (hne (.inp f) (by simp)), congrArg EVec.buf (hne (.inp f) (by simp))⟩⟩, hs.vecs, hs.dn, by rw [hbuf]; exact hs.work,
      fun k hk => ?_, fun o' => ?_, fun k => by rw [hrd]; exact hs.rd k, fun o' => ?_, hs.borS, hs.borN, fun _ => ?_,
      fun o' ho' => absurd ho' (by omega)⟩
    · show (Function.update s.qOut o _ o').buf.len = _
      by_cases h1 : o' = o
      · subst h1; rw [Function.update_self]; exact hs.fix.qOutLen o'
      · rw [Function.update_of_ne h1]; exact hs.fix.qOutLen o'
    · show (Function.update s.ev (.out o) _ k).wr = _
      rw [hne k (hk o)]; exact hs.wrI k hk
    · show (Function.update s.ev (.out o) _ (.out o')).wr = _
      by_cases h1 : o' = o
      · subst h1; rw [Function.update_self]; simp [hm]
      · rw [hne _ (by simpa using h1), hs.wrO]
        congr 1
        rw [Nat.lt_succ_iff_lt_or_eq]
        simp [h1]
    · show (Function.update s.qOut o _ o').bor = _
      by_cases h1 : o' = o
      · subst h1; rw [Function.update_self, if_pos ⟨by omega, hm⟩]
      · rw [Function.update_of_ne h1, hs.borO]
        have : o' < o + 1 ↔ o' < o := by omega
        simp only [this]
    · exact hs.good_of rfl rfl fun k _ => hbuf k
  · rw [if_neg hm]
    refine .pure ⟨hs.fix, hs.vecs, hs.dn, hs.work, hs.wrI, fun o' => ?_, hs.rd, fun o' => ?_, hs.borS, hs.borN, hs.good,
      hs.outs⟩
    · rw [hs.wrO]
      congr 1
      rw [Nat.lt_succ_iff_lt_or_eq]
      by_cases h1 : o' = o
      · subst h1; simp [hm]
      · simp [h1]
    · rw [hs.borO]
      by_cases h1 : o' = o
      · subst h1; simp [hm]
      · have : o' < o + 1 ↔ o' < o := by omega
        simp only [this]

theorem write_step (h : GOK dv op S) {s0 : GSt α} (h0 : MidSt op S inv V op.nout 0 0 s0) {o : Nat} (ho : o < op.nout)
    {s : GSt α} (hs : MidSt op S inv V op.nout o 0 s) :
    Tr (writeOutG op (fun o c p => op.g (readQuads op s0 p) o c) o) s fun s' _ => MidSt op S inv V op.nout (o + 1) 0 s' := by
  have hgood : ∀ i < op.nin, InVals op S (fun v => (V v).buf.val) inv i (s0.arr (s0.qIn i)).val := by
    intro i hi
    have := (h0.good rfl i hi).2.2
    unfold GSt.L at this
    rw [h0.vecs] at this
    exact this
  refine .bind (.get ?_)
  by_cases hm : (op.out o).mode = .none
  · have hb : (s.qOut o).bor = some (.ev (.out o)) := by rw [hs.borO, if_pos ⟨ho, hm⟩]
    obtain ⟨hrst, -, hno, -⟩ := h.outF ho
    obtain ⟨hes, hsz⟩ := hno hm
    have hlen : (s.ev (.out o)).buf.len = op.ne * op.Q * (op.out o).size := by
      rw [hs.fix.evOut, hrst.eSize, hes, hsz]
    have harr : s.arr (s.qOut o) = (s.ev (.out o)).buf := by unfold GSt.arr; rw [hb]
    rw [if_neg (by rw [harr, hlen]; omega)]
    simp only [hb]
    refine .mod ?_
    set w := writeQuads (op.ne * op.Q) (op.out o).size (fun c p => op.g (readQuads op s0 p) o c) (s.ev (.out o)).buf with hw
    have hwl : w.len = (s.ev (.out o)).buf.len := rfl
    have hne : ∀ k, k ≠ .out o → (Function.update s.ev (.out o) { s.ev (.out o) with buf := w }) k = s.ev k :=
      fun k hk => Function.update_of_ne hk _ _
    have hl : ∀ k, ((Function.update s.ev (.out o) { s.ev (.out o) with buf := w }) k).buf.len = (s.ev k).buf.len := by
      intro k
      by_cases hk : k = .out o
      · subst hk; rw [Function.update_self]; exact hwl
      · rw [hne k hk]
    have hrd : ∀ k, ((Function.update s.ev (.out o) { s.ev (.out o) with buf := w }) k).rd = (s.ev k).rd := by
      intro k
      by_cases hk : k = .out o
      · subst hk; rw [Function.update_self]
      · rw [hne k hk]
    have hwr : ∀ k, ((Function.update s.ev (.out o) { s.ev (.out o) with buf := w }) k).wr = (s.ev k).wr := by
      intro k
      by_cases hk : k = .out o
      · subst hk; rw [Function.update_self]
      · rw [hne k hk]
    refine ⟨⟨hs.fix.tabs, fun i => by rw [hl]; exact hs.fix.evIn i, fun i => by rw [hl]; exact hs.fix.evOut i,
      hs.fix.qInLen, hs.fix.qOutLen, hs.fix.wts, hs.fix.cachedOf rfl rfl fun f => ⟨congrArg EVec.valid (hne (.inp f) (by simp)), congrArg EVec.buf (hne (.inp f) (by simp))⟩⟩, hs.vecs, hs.dn, by rw [hl]; exact hs.work,
      fun k hk => by rw [hwr]; exact hs.wrI k hk, fun o' => by rw [hwr]; exact hs.wrO o', fun k => by rw [hrd]; exact hs.rd k,
      hs.borO, hs.borS, hs.borN, fun _ => ?_, fun o' ho' => ?_⟩
    · refine hs.good_of rfl rfl fun k hk => ?_
      show (Function.update s.ev (.out o) _ k).buf = _
      rw [hne k (hk o)]
    · by_cases h1 : o' = o
      · subst h1
        have ha : ∀ s' : GSt α, GSt.arr s' (s.qOut o') = (s'.ev (.out o')).buf := by
          intro s'; unfold GSt.arr; rw [hb]
        refine ⟨.inl (by show (s.qOut o').bor.isSome = true; rw [hb]; rfl), ?_, ?_⟩
        · show _ ≤ (GSt.arr _ (s.qOut o')).len
          rw [ha, hl, hlen]
        · show OutVals _ _ _ _ _ (GSt.arr _ (s.qOut o')).val
          rw [ha]
          show OutVals _ _ _ _ _ (Function.update s.ev (.out o') _ (.out o')).buf.val
          rw [Function.update_self]
          exact outVals_write hgood
      · refine goodOut_congr (s := s) rfl (fun v => hs.borO_vec o' v) (fun k hk => ?_) (hs.outs o' (by omega))
        rw [hs.borO] at hk
        split_ifs at hk
        · cases hk
          show (Function.update s.ev (.out o) _ (.out o')).buf = _
          rw [hne _ (by simpa using h1)]
  · have hb : (s.qOut o).bor = none := by rw [hs.borO, if_neg (fun hh => hm hh.2)]
    have harr : s.arr (s.qOut o) = (s.qOut o).buf := by unfold GSt.arr; rw [hb]
    rw [if_neg (by rw [harr, hs.fix.qOutLen]; omega)]
    simp only [hb]
    refine .mod ?_
    set w := writeQuads (op.ne * op.Q) (op.out o).size (fun c p => op.g (readQuads op s0 p) o c) (s.qOut o).buf with hw
    have hwl : w.len = (s.qOut o).buf.len := rfl
    have hne : ∀ o', o' ≠ o → (Function.update s.qOut o ⟨true, none, w⟩) o' = s.qOut o' :=
      fun o' hk => Function.update_of_ne hk _ _
    refine ⟨⟨hs.fix.tabs, hs.fix.evIn, hs.fix.evOut, hs.fix.qInLen, fun o' => ?_, hs.fix.wts, hs.fix.cached⟩, hs.vecs, hs.dn,
      hs.work, hs.wrI, hs.wrO, hs.rd, fun o' => ?_, hs.borS, hs.borN, fun _ => hs.good_of rfl rfl fun _ _ => rfl,
      fun o' ho' => ?_⟩
    · show (Function.update s.qOut o _ o').buf.len = _
      by_cases h1 : o' = o
      · subst h1; rw [Function.update_self]; exact hwl.trans (hs.fix.qOutLen o')
      · rw [hne o' h1]; exact hs.fix.qOutLen o'
    · show (Function.update s.qOut o _ o').bor = _
      by_cases h1 : o' = o
      · subst h1; rw [Function.update_self, if_neg (fun hh => hm hh.2)]
      · rw [hne o' h1]; exact hs.borO o'
    · by_cases h1 : o' = o
      · subst h1
        unfold GoodOut
        show ((Function.update s.qOut o' _ o').bor.isSome = true ∨ (Function.update s.qOut o' _ o').valid = true) ∧
          _ ≤ (GSt.arr _ (Function.update s.qOut o' _ o')).len ∧ OutVals _ _ _ _ _ (GSt.arr _ (Function.update s.qOut o' _ o')).val
        rw [Function.update_self]
        refine ⟨.inr rfl, ?_, ?_⟩
        · show _ ≤ w.len
          rw [hwl, hs.fix.qOutLen]
        · exact outVals_write hgood
      · have hold := hs.outs o' (by omega)
        unfold GoodOut
        show ((Function.update s.qOut o _ o').bor.isSome = true ∨ (Function.update s.qOut o _ o').valid = true) ∧
          _ ≤ (GSt.arr _ (Function.update s.qOut o _ o')).len ∧ OutVals _ _ _ _ _ (GSt.arr _ (Function.update s.qOut o _ o')).val
        rw [hne o' h1]
        exact hold

theorem qf_step (h : GOK dv op S) (hne : 0 < op.ne) {s : GSt α} (hs : MidSt op S inv V op.nout 0 0 s) :
    Tr (qfApply op) s fun s' _ => MidSt op S inv V op.nout op.nout 0 s' := by
  unfold qfApply
  refine .bind (Tr.mono (Tr.loop (fun _ s' => s' = s) rfl ?_) ?_)
  · rintro i hi s' rfl
    obtain ⟨h1, h2, -⟩ := hs.good rfl i hi
    refine .bind (.get (.bind (.check h1 ?_)))
    rw [if_neg (by omega)]
    exact .pure rfl
  · rintro s' _ rfl
    refine .bind (.get (.bind (.check (Nat.mul_pos hne h.pts) ?_)))
    exact Tr.loop (fun i s => MidSt op S inv V op.nout i 0 s) hs fun i hi s1 h1 => write_step h hs hi h1

theorem restore_step (h : GOK dv op S) {f : Nat} (hf : f < op.nin) {s : GSt α} (hs : MidSt op S inv V op.nout op.nout f s) :
    Tr (inputRestore op f) s fun s' _ => MidSt op S inv V op.nout op.nout (f + 1) s' := by
  unfold inputRestore
  have hsum : ∀ k, ∑ j ∈ range (f + 1), reads op k j = ∑ j ∈ range f, reads op k j + reads op k f :=
    fun k => sum_range_succ _ _
  by_cases hm : (op.inp f).mode = .none
  · rw [if_pos hm]
    have hb := hs.borS f hf le_rfl hm
    refine .bind (.get (.bind (.check (by rw [hb]; rfl) (.bind (.mod ?_)))))
    rw [keyIn_eq h hs.fix.tabs hf]
    set q : QVec α := { s.qIn f with valid := false, bor := none } with hq
    have hqne : ∀ g, g ≠ f → (Function.update s.qIn f q) g = s.qIn g := fun g hg => Function.update_of_ne hg _ _
    have hqlen : ∀ i < op.nin, (op.inp i).mode ≠ .weight → (Function.update s.qIn f q i).buf.len = op.ne * op.Q * (op.inp i).size := by
      intro g h1 h2
      by_cases hg : g = f
      · subst hg; rw [Function.update_self]; exact hs.fix.qInLen g h1 h2
      · rw [hqne g hg]; exact hs.fix.qInLen g h1 h2
    have hwts : ∀ i < op.nin, (op.inp i).mode = .weight → (Function.update s.qIn f q i).valid = true ∧
        (Function.update s.qIn f q i).bor = none ∧ (Function.update s.qIn f q i).buf.len = op.ne * op.Q ∧
        ∀ e < op.ne, ∀ q' < op.Q, (Function.update s.qIn f q i).buf.val (e * op.Q + q') = S.w i q' := by
      intro g h1 h2
      have hg : g ≠ f := by rintro rfl; rw [hm] at h2; cases h2
      rw [hqne g hg]; exact hs.fix.wts g h1 h2
    have hborS : ∀ j < op.nin, f + 1 ≤ j → (op.inp j).mode = .none → (Function.update s.qIn f q j).bor = some (srcI op inv j) := by
      intro j h1 h2 h3
      rw [hqne j (by omega)]; exact hs.borS j h1 (by omega) h3
    have hborN : ∀ j < op.nin, (op.inp j).mode ≠ .none ∨ j < f + 1 → (Function.update s.qIn f q j).bor = none := by
      intro j h1 h2
      by_cases hg : j = f
      · subst hg; rw [Function.update_self]
      · rw [hqne j hg]
        refine hs.borN j h1 ?_
        rcases h2 with h2 | h2
        · exact .inl h2
        · exact .inr (by omega)
    cases hk : keyI op f with
    | some k =>
      have hread : reads op k f = 1 := if_pos ⟨hm, hk⟩
      have htot : ∑ j ∈ range (f + 1), reads op k j ≤ ∑ j ∈ range op.nin, reads op k j :=
        sum_le_sum_of_subset (range_subset_range.2 (by omega))
      have hrdk := hs.rd k
      rw [hsum, hread] at htot
      refine .bind (.check (by omega) (.mod ?_))
      have hev : ∀ k', ((Function.update s.ev k { s.ev k with rd := (s.ev k).rd - 1 }) k').buf = (s.ev k').buf ∧
          ((Function.update s.ev k { s.ev k with rd := (s.ev k).rd - 1 }) k').wr = (s.ev k').wr ∧
          ((Function.update s.ev k { s.ev k with rd := (s.ev k).rd - 1 }) k').valid = (s.ev k').valid := by
        intro k'
        by_cases hk' : k' = k
        · subst hk'; rw [Function.update_self]; exact ⟨rfl, rfl, rfl⟩
        · rw [Function.update_of_ne hk']; exact ⟨rfl, rfl, rfl⟩
      refine ⟨⟨hs.fix.tabs, fun i => by rw [(hev _).1]; exact hs.fix.evIn i, fun i => by rw [(hev _).1]; exact hs.fix.evOut i,
        hqlen, hs.fix.qOutLen, hwts, hs.fix.cachedOf rfl rfl fun f => ⟨(hev _).2.2, (hev _).1⟩⟩, hs.vecs, hs.dn, by rw [(hev _).1]; exact hs.work,
        fun k' hk' => by rw [(hev _).2.1]; exact hs.wrI k' hk', fun o => by rw [(hev _).2.1]; exact hs.wrO o, fun k' => ?_,
        hs.borO, hborS, hborN, fun h0 => absurd h0 (by omega), fun o ho => ?_⟩
      · rw [hsum]
        show (Function.update s.ev k _ k').rd + _ = _
        by_cases hk' : k' = k
        · subst hk'
          rw [Function.update_self, hread]
          show (s.ev k').rd - 1 + _ = _
          omega
        · rw [Function.update_of_ne hk', ← hs.rd k']
          have : reads op k' f = 0 := if_neg fun hh => hk' (Option.some.inj (hk.symm.trans hh.2)).symm
          omega
      · exact goodOut_congr (s := s) rfl (fun v => hs.borO_vec o v) (fun k _ => (hev k).1) (hs.outs o ho)
    | none =>
      refine .pure ⟨⟨hs.fix.tabs, hs.fix.evIn, hs.fix.evOut, hqlen, hs.fix.qOutLen, hwts, hs.fix.cached⟩, hs.vecs, hs.dn,
        hs.work, hs.wrI, hs.wrO, fun k' => ?_, hs.borO, hborS, hborN, fun h0 => absurd h0 (by omega), fun o ho => hs.outs o ho⟩
      rw [hsum, ← hs.rd k']
      have : reads op k' f = 0 := if_neg fun hh => absurd (hk.symm.trans hh.2) (by simp)
      show (s.ev k').rd + _ = _
      omega
  · rw [if_neg hm]
    refine .pure ⟨hs.fix, hs.vecs, hs.dn, hs.work, hs.wrI, hs.wrO, fun k' => ?_, hs.borO, fun j h1 h2 h3 => ?_, fun j h1 h2 => ?_,
      fun h0 => absurd h0 (by omega), hs.outs⟩
    · rw [hsum, ← hs.rd k']
      have : reads op k' f = 0 := if_neg fun hh => hm hh.1
      omega
    · exact hs.borS j h1 (by omega) h3
    · refine hs.borN j h1 ?_
      rcases h2 with h2 | h2
      · exact .inl h2
      · by_cases hjf : j = f
        · subst hjf; exact .inl hm
        · exact .inr (by omega)

end Verif.Gpu
