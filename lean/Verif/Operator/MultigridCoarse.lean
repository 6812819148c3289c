import Verif.Operator.MultigridApply
import Mathlib.Algebra.Order.BigOperators.Group.Finset

/-!
# C46: the coarse operator
-/

set_option linter.unusedSectionVars false

namespace Verif
namespace Operator

open Finset
open Restriction (Rstr RData Made idCoef)
open Basis (Bas EMode MulBy MulByT AddByT)

variable {α : Type} [Field α] [LinearOrder α]

/-! ## Fields of the coarse operator -/

/-- The field of the coarse operator for a field of the fine operator. -/
def coarsen (rc : Nat) (bc : Bas α) (v : FVal α) : FVal α :=
  if v.vec = .active then ⟨v.name, .active, some rc, some bc⟩ else v

theorem argOf_opt {β : Type _} (x : Option β) : (argOf x).opt = x := by cases x <;> rfl

/-- Names determine the position of a field. -/
theorem name_pos {s : OpI α} (hn : (QFunction.names s.qf).Nodup) {k k' : Bool} {i i' : Nat} {f f' : QFunction.Field}
    (h : (s.tab k)[i]? = some f) (h' : (s.tab k')[i']? = some f') (e : f.name = f'.name) : k = k' ∧ i = i' := by
  have a := locate_eq hn h rfl
  rw [e, locate_eq hn h' rfl] at a
  cases a
  exact ⟨rfl, rfl⟩

/-- What the loops maintain: the fields done so far are the coarsened ones, the others are as at the start. -/
structure Cloning (rs : Nat → Rstr) (rc : Nat) (bc : Bas α) (fine s0 : OpI α) (k : Bool) (i : Nat) (s : OpI α) : Prop where
  built : Built rs True s
  inputs : s.qf.inputs = fine.qf.inputs
  outputs : s.qf.outputs = fine.qf.outputs
  done : ∀ j < i, ∀ v, fine.slot k j = .set v → s.slot k j = .set (coarsen rc bc v)
  rest : ∀ k' j, k' ≠ k ∨ i ≤ j → s.slot k' j = s0.slot k' j

/-- Objects have positive sizes, as their creation functions check. -/
def SizedAll (rs : Nat → Rstr) (bc : Bas α) : Prop := (∀ r, 0 < (rs r).elemSize ∧ 0 ≤ (rs r).lSize) ∧ 0 < bc.Q

theorem clone_table {rs : Nat → Rstr} {rc : Nat} {bc : Bas α} {fine s0 : OpI α} {x0 : Option (Option Nat)}
    {st : OpI α × Option (Option Nat)} {k : Bool} (hf : Built rs True fine) (hsz : SizedAll rs bc)
    (h0 : Cloning rs rc bc fine s0 k 0 s0) (he : ∀ i, s0.slot k i = .empty)
    (e : cloneFields rs rc bc (fine.slot k) (fine.tab k).length (s0, x0) = .ok st) :
    Cloning rs rc bc fine s0 k (fine.tab k).length st.1 := by
  unfold cloneFields at e
  refine loop_keeps (fun i st => Cloning rs rc bc fine s0 k i st.1) h0 ?_ e
  rintro i hi ⟨s, x⟩ st' hI eb
  obtain ⟨v, s', hv, ec, rfl⟩ := clone_step eb
  clear eb
  dsimp only at hI ec ⊢
  obtain ⟨hQ, f, hf1, ha⟩ := hf.inv.agrees k i v hv
  have htab : ∀ k, s.tab k = fine.tab k := by
    intro k; cases k
    · exact hI.outputs
    · exact hI.inputs
  have hnod := hI.built.inv.nodup
  have key : ∀ r b w, setField rs v.name r b (some w) s = .ok s' () → Sized rs b → 
      (coarsen rc bc v) = ⟨v.name, w, r.opt, b.opt⟩ → Cloning rs rc bc fine s0 k (i + 1) s' := by
    intro r b w es hb hcv
    have hunset : ¬ IsSet s v.name := by
      rintro ⟨k', i', v', h1, h2⟩
      obtain ⟨_, f', h3, h4⟩ := hI.built.inv.agrees k' i' v' h1
      obtain ⟨rfl, rfl⟩ := name_pos hnod h3 (by rw [htab]; exact hf1) (by rw [← h4.name, h2, ha.name])
      rw [hI.rest k' i' (Or.inr le_rfl), he] at h1
      cases h1
    obtain ⟨w', k', i', f', hw, h1, h2, h3, h4⟩ := C41_stored hI.built es
    cases hw
    obtain ⟨rfl, rfl⟩ := name_pos hnod h1 (by rw [htab]; exact hf1) (by rw [h2, ha.name])
    obtain ⟨_, hacc, hs'⟩ := setField_inv es (locate_eq hnod h1 h2)
    have hqf : s'.qf = s.freeze.qf := by rw [hs']; exact (fill_rest rs s.freeze k' i' v.name r b w).1
    refine ⟨.setField hI.built hb (fun _ => hunset) es, by rw [hqf]; exact hI.inputs, by rw [hqf]; exact hI.outputs,
      fun j hj v' hv' => ?_, fun k2 j hj => ?_⟩
    · rcases (by omega : j = i' ∨ j < i') with rfl | hlt
      · rw [hv] at hv'; cases hv'
        rw [h3, hcv]
      · rw [h4 k' j (by intro hh; cases hh; omega)]
        exact hI.done j hlt v' hv'
    · rw [h4 k2 j (by intro hh; cases hh; rcases hj with hj | hj <;> [exact hj rfl; omega])]
      exact hI.rest k2 j (hj.imp id (by omega))
  unfold cloneField at ec
  split at ec
  · rename_i hact
    exact key _ _ _ ec ⟨hsz.1, fun b' hb' => by cases hb'; exact hsz.2⟩ (by unfold coarsen; rw [if_pos hact]; rfl)
  · rename_i hact
    refine key _ _ _ ec ⟨hsz.1, fun b' hb' => ?_⟩ ?_
    · have : v.basis = some b' := by
        have := argOf_opt v.basis
        rw [hb'] at this; exact this.symm
      have hp := ha.points
      unfold FVal.qpts at hp
      rw [this] at hp
      dsimp only at hp
      omega
    · unfold coarsen
      rw [if_neg hact, argOf_opt, argOf_opt]

/-- **C46.** The coarse operator is a complete operator, built as through the interface without setting a field twice (so
that C41 and the theorems on application hold for it), with the fields of the fine operator: active fields have the
coarse restriction and basis, all other fields the same objects. -/
theorem C46_coarse {rs : Nat → Rstr} {eps : α} {cmp : Bool} {fine : OpI α} {pm : Option (Buf α)} {rc ρ μ : Nat} {bc : Bas α}
    {bcf : Option (Bas α)} {wantR wantP : Bool} {lev : Level α} (hf : Built rs True fine) (hsz : SizedAll rs bc)
    (e : multigridLevel rs eps cmp fine pm rc bc bcf ρ μ wantR wantP = .ok lev) :
    Built rs True lev.coarse ∧ lev.coarse.ready = true ∧ lev.coarse.qf.inputs = fine.qf.inputs ∧
    lev.coarse.qf.outputs = fine.qf.outputs ∧
    (∀ i < fine.qf.inputs.length, ∃ v, fine.inF i = .set v ∧ lev.coarse.inF i = .set (coarsen rc bc v)) ∧
    ∀ i < fine.qf.outputs.length, ∃ v, fine.outF i = .set v ∧ lev.coarse.outF i = .set (coarsen rc bc v) := by
  obtain ⟨c, x, -, h2, h3, -⟩ := multigrid_inv e
  unfold cloneOper at h2
  obtain ⟨f1, e1, h2⟩ := Res.bind_eq_ok.1 h2
  obtain ⟨st, e2, e3⟩ := Res.bind_eq_ok.1 h2
  obtain ⟨_, e1⟩ := runOn_ok e1
  have hb1 : Built rs True f1 := .checkReady hf e1
  have hf1 : f1.inF = fine.inF ∧ f1.outF = fine.outF ∧ f1.qf.inputs = fine.qf.inputs ∧ f1.qf.outputs = fine.qf.outputs := by
    rcases (checkReady_ok e1).2 with rfl | rfl <;> exact ⟨rfl, rfl, rfl, rfl⟩
  obtain ⟨w, hw⟩ := hb1.inv.calls
  have a1 := clone_table (k := true) hb1 hsz (s0 := OpI.create f1.qf) (rc := rc) (x0 := Option.none)
    ⟨.create hw, rfl, rfl, fun j hj => by omega, fun _ _ _ => rfl⟩ (fun _ => rfl) e2
  have a2 := clone_table (k := false) hb1 hsz (s0 := st.1) (rc := rc) (x0 := st.2)
    ⟨a1.built, a1.inputs, a1.outputs, fun j hj => by omega, fun _ _ _ => rfl⟩ (fun i => a1.rest false i (Or.inl (by simp))) e3
  dsimp only at a2
  have hc : lev.coarse.inF = c.inF ∧ lev.coarse.outF = c.outF ∧ lev.coarse.qf.inputs = c.qf.inputs ∧
      lev.coarse.qf.outputs = c.qf.outputs := by
    rcases (checkReady_ok h3).2 with hh | hh <;> rw [hh] <;> exact ⟨rfl, rfl, rfl, rfl⟩
  obtain ⟨-, -, hr⟩ := C41_ready_partial hf e1
  refine ⟨.checkReady a2.built h3, (checkReady_ok h3).1, by rw [hc.2.2.1, a2.inputs, hf1.2.2.1],
    by rw [hc.2.2.2, a2.outputs, hf1.2.2.2], fun i hi => ?_, fun i hi => ?_⟩
  · obtain ⟨v, hv, _⟩ := hr true i (f1.qf.inputs[i]'(by rw [hf1.2.2.1]; exact hi)) (List.getElem?_eq_getElem _)
    refine ⟨v, by rw [← hf1.1]; exact hv, ?_⟩
    rw [hc.1]
    have := a1.done i (by show i < f1.qf.inputs.length; rw [hf1.2.2.1]; exact hi) v hv
    exact (a2.rest true i (Or.inl (by simp))).trans this
  · obtain ⟨v, hv, _⟩ := hr false i (f1.qf.outputs[i]'(by rw [hf1.2.2.2]; exact hi)) (List.getElem?_eq_getElem _)
    refine ⟨v, by rw [← hf1.2.1]; exact hv, ?_⟩
    rw [hc.2.1]
    exact a2.done i (by show i < f1.qf.outputs.length; rw [hf1.2.2.2]; exact hi) v hv

/-! ## Errors -/

/-- **C46.** Composite operators are refused. -/
theorem C46_composite (rs : Nat → Rstr) (eps : α) (fine : OpI α) (pm : Option (Buf α)) (rc ρ μ : Nat) (bc : Bas α)
    (bcf : Option (Bas α)) (wantR wantP : Bool) :
    multigridLevel rs eps true fine pm rc bc bcf ρ μ wantR wantP = .err .unsupported := rfl

/-- **C46.** Transfer operators need a fine restriction that is not curl-oriented, a vector of multiplicities of its length
and a basis; otherwise nothing is created. -/
theorem C46_refused {rs : Nat → Rstr} {eps : α} {fine : OpI α} {pm : Option (Buf α)} {rc ρ μ rf : Nat} {bc : Bas α}
    {bcf : Option (Bas α)} {wantR wantP : Bool} (ha : ActiveRstr fine rf) (hw : wantR = true ∨ wantP = true)
    (h : (rs rf).rtype = .curlOriented ∨ pm = none ∨ (∃ p, pm = some p ∧ ¬ (rs rf).lSize ≤ p.len) ∨ bcf = none) :
    ∀ lev, multigridLevel rs eps false fine pm rc bc bcf ρ μ wantR wantP ≠ .ok lev := by
  intro lev e
  obtain ⟨c, x, -, h2, -, h4⟩ := multigrid_inv e
  rcases h4 with ⟨h4, _⟩ | ⟨-, r, p, m, b', R, P, rfl, k1, k2, k3, k4, -⟩
  · exact h4 hw
  have := cloneOper_pick h2 ha
  cases this
  rcases h with h | h | ⟨q, h, h'⟩ | h
  · exact k1 h
  · rw [h] at k2; cases k2
  · rw [h] at k2; cases k2
    rw [multVec_short h'] at k3; cases k3
  · rw [h] at k4; cases k4

/-- **C46.** The errors: when the coarse operator alone can be created and there is an active field, asking for a transfer operator fails as unsupported
on a curl-oriented restriction, and as incompatible without multiplicities or without a basis. -/
theorem C46_errors {rs : Nat → Rstr} {eps : α} {fine : OpI α} {pm : Option (Buf α)} {rc ρ μ rf : Nat} {bc : Bas α}
    {bcf : Option (Bas α)} {wantR wantP : Bool} {lev0 : Level α} (ha : ActiveRstr fine rf) (hw : wantR = true ∨ wantP = true)
    (h0 : multigridLevel rs eps false fine pm rc bc bcf ρ μ false false = .ok lev0)
    (hu : multigridLevel rs eps false fine pm rc bc bcf ρ μ wantR wantP ≠ .ub) :
    ((rs rf).rtype = .curlOriented →
      multigridLevel rs eps false fine pm rc bc bcf ρ μ wantR wantP = .err .unsupported) ∧
    ((rs rf).rtype ≠ .curlOriented → pm = none →
      multigridLevel rs eps false fine pm rc bc bcf ρ μ wantR wantP = .err .incompatible) ∧
    ((rs rf).rtype ≠ .curlOriented → (∃ p m, pm = some p ∧ multVec eps (rs rf) p = .ok m) → bcf = none →
      multigridLevel rs eps false fine pm rc bc bcf ρ μ wantR wantP = .err .incompatible) := by
  obtain ⟨c, x, -, h2, -, -⟩ := multigrid_inv h0
  unfold multigridLevel at hu ⊢
  simp only [Res.check_true rfl, h2, Res.bind_ok, if_pos hw] at hu ⊢
  cases x with
  | none => exact absurd rfl hu
  | some x =>
  have := cloneOper_pick h2 ha
  cases this
  refine ⟨fun h => ?_, fun h hp => ?_, ?_⟩
  · simp only [levelMult, Res.check_false (not_not_intro h), Res.bind_err]; rfl
  · simp only [levelMult, Res.check_true h, hp, Res.bind_ok, Res.bind_err]; rfl
  · rintro h ⟨p, m, rfl, hm⟩ rfl
    simp only [levelMult, Res.check_true h, hm, Res.bind_ok, levelOpers, Res.bind_err]; rfl

/-! ## The coarse operator is the Galerkin projection of the fine operator -/

/-- `oc` has the fields of `op`, with the active ones moved from restriction `rf` to `rc`. -/
structure Coarsened (op oc : Oper α) (rf rc : Nat) : Prop where
  ne : oc.ne = op.ne
  Q : oc.Q = op.Q
  nin : oc.nin = op.nin
  nout : oc.nout = op.nout
  isId : oc.isId = op.isId
  f : oc.f = op.f
  inVec : ∀ i < op.nin, (oc.inp i).vec = (op.inp i).vec ∧ (oc.inp i).mode = (op.inp i).mode ∧ (oc.inp i).size = (op.inp i).size
  outVec : ∀ o < op.nout, (oc.out o).vec = (op.out o).vec ∧ (oc.out o).mode = (op.out o).mode
  inActive : ∀ i < op.nin, (op.inp i).vec = .active →
    (op.inp i).rid = some rf ∧ (oc.inp i).rid = some rc ∧ (op.inp i).mode ≠ .none
  inPassive : ∀ i < op.nin, (op.inp i).vec ≠ .active → oc.inp i = op.inp i
  outActive : ∀ o < op.nout, (op.out o).vec = .active →
    (op.out o).rid = some rf ∧ (oc.out o).rid = some rc ∧ (op.out o).mode ≠ .none

/-- The bases are nested: matrices of the coarse basis are those of the fine basis after interpolation by `B`. -/
structure Nested (op oc : Oper α) (S Sc : Meaning α) (rf rc : Nat) (B : Buf α) : Prop where
  D : Sc.D = S.D
  w : Sc.w = S.w
  passive : ∀ i < op.nin, (op.inp i).vec ≠ .active → Sc.mIn i = S.mIn i
  size : ∀ i < op.nin, (op.inp i).vec = .active → (op.inp i).size = (S.D rf).nc * (op.inp i).qc
  inp : ∀ i < op.nin, (op.inp i).vec = .active → ∀ r < (op.inp i).qc * op.Q, ∀ c < (S.D rc).es, (Sc.mIn i).val (r * (S.D rc).es + c) =
    ∑ n ∈ range (S.D rf).es, (S.mIn i).val (r * (S.D rf).es + n) * B.val (n * (S.D rc).es + c)
  out : ∀ o < op.nout, (op.out o).vec = .active → ∀ r < (op.out o).qc * op.Q, ∀ c < (S.D rc).es, (Sc.mOut o).val (r * (S.D rc).es + c) =
    ∑ n ∈ range (S.D rf).es, (S.mOut o).val (r * (S.D rf).es + n) * B.val (n * (S.D rc).es + c)
  qc : ∀ o < op.nout, (op.out o).vec = .active → (oc.out o).qc = (op.out o).qc

section
variable {op oc : Oper α} {S Sc : Meaning α} {rf rc : Nat} {B : Buf α}

/-- The QFunction sees the same on both levels. -/
theorem inArr_nested (hC : Coarsened op oc rf rc) (hN : Nested op oc S Sc rf rc B) (hs : (S.D rc).nc = (S.D rf).nc)
    (hnc : 0 < (S.D rf).nc)
    {L L' : Nat → Nat → α} {iv iv' : Nat} {e : Nat} (hint : ∀ k < (S.D rf).nc, ∀ n < (S.D rf).es,
      interpE B (S.D rc) (L iv) e k n = (S.D rf).row (L' iv') e k n)
    (hL : ∀ i < op.nin, (op.inp i).vec ≠ .active → cont L ((op.inp i).vec.ptr (.vec iv)) = cont L' ((op.inp i).vec.ptr (.vec iv'))) :
    Sc.inArr oc L (.vec iv) e = S.inArr op L' (.vec iv') e := by
  funext i x
  unfold Meaning.inArr
  rw [hC.nin, hC.Q]
  by_cases hi : i < op.nin
  · obtain ⟨v1, v2, v3⟩ := hC.inVec i hi
    rw [v3]
    by_cases hx : x < op.Q * (op.inp i).size
    · rw [if_pos ⟨hi, hx⟩, if_pos ⟨hi, hx⟩]
      by_cases ha : (op.inp i).vec = .active
      · obtain ⟨a1, a2, a3⟩ := hC.inActive i hi ha
        unfold Meaning.inVal Meaning.dat
        simp only [v1, v2, a1, a2, hN.D, hN.w, hC.Q, ha, Option.getD_some, FVec.ptr, cont]
        have key : ∑ n ∈ range (S.D rc).es, (Sc.mIn i).val ((x / op.Q / (S.D rc).nc * op.Q + x % op.Q) * (S.D rc).es + n) *
              (S.D rc).row (L iv) e (x / op.Q % (S.D rc).nc) n =
            ∑ n ∈ range (S.D rf).es, (S.mIn i).val ((x / op.Q / (S.D rf).nc * op.Q + x % op.Q) * (S.D rf).es + n) *
              (S.D rf).row (L' iv') e (x / op.Q % (S.D rf).nc) n := by
          rw [hs]
          have hr : x / op.Q / (S.D rf).nc * op.Q + x % op.Q < (op.inp i).qc * op.Q := by
            rw [hN.size i hi ha] at hx
            have hQ : 0 < op.Q := by
              rcases Nat.eq_zero_or_pos op.Q with h0 | h0
              · rw [h0, Nat.zero_mul] at hx; omega
              · exact h0
            have h1 : x / op.Q / (S.D rf).nc < (op.inp i).qc :=
              Nat.div_lt_of_lt_mul (Nat.div_lt_of_lt_mul hx)
            have h2 := Nat.mod_lt x hQ
            calc _ < x / op.Q / (S.D rf).nc * op.Q + op.Q := by omega
              _ = (x / op.Q / (S.D rf).nc + 1) * op.Q := by ring
              _ ≤ _ := Nat.mul_le_mul_right _ h1
          refine Eq.trans (sum_congr rfl fun c hc => by rw [hN.inp i hi ha _ hr c (mem_range.1 hc)]) ?_
          simp only [sum_mul]
          rw [sum_comm]
          refine sum_congr rfl fun n hn => ?_
          rw [← hint _ (Nat.mod_lt _ hnc) n (mem_range.1 hn)]
          unfold interpE
          rw [mul_sum]
          exact sum_congr rfl fun c _ => by ring
        split
        · rfl
        · rename_i hh; exact absurd hh a3
        · exact key
      · have hp := hC.inPassive i hi ha
        unfold Meaning.inVal Meaning.dat
        simp only [hp, hN.D, hN.w, hC.Q, hN.passive i hi ha, hL i hi ha]
    · rw [if_neg (fun h => hx h.2), if_neg (fun h => hx h.2)]
  · rw [if_neg (fun h => hi h.1), if_neg (fun h => hi h.1)]

/-- Contributions of an active output on both levels. -/
theorem elemOut_nested (hC : Coarsened op oc rf rc) (hN : Nested op oc S Sc rf rc B) (hs : (S.D rc).nc = (S.D rf).nc)
    {L L' : Nat → Nat → α} {inv inv' : VPtr} {e : Nat} (hin : Sc.inArr oc L inv e = S.inArr op L' inv' e) {o : Nat}
    (ho : o < op.nout) (ha : (op.out o).vec = .active) (k : Nat) {c : Nat} (hc : c < (S.D rc).es) :
    Sc.elemOut oc L inv o e k c =
      ∑ n ∈ range (S.D rf).es, B.val (n * (S.D rc).es + c) * S.elemOut op L' inv' o e k n := by
  obtain ⟨a1, a2, a3⟩ := hC.outActive o ho ha
  have hout : Sc.outArr oc L inv e = S.outArr op L' inv' e := by
    unfold Meaning.outArr
    rw [hin, hC.isId, hC.f]
  unfold Meaning.elemOut Meaning.dat
  simp only [(hC.outVec o ho).2, a1, a2, hN.D, hC.Q, Option.getD_some, hout, hN.qc o ho ha]
  have key : ∑ j ∈ range (op.out o).qc, ∑ q ∈ range op.Q,
      (Sc.mOut o).val ((j * op.Q + q) * (S.D rc).es + c) * S.outArr op L' inv' e o ((j * (S.D rc).nc + k) * op.Q + q) =
      ∑ n ∈ range (S.D rf).es, B.val (n * (S.D rc).es + c) * ∑ j ∈ range (op.out o).qc, ∑ q ∈ range op.Q,
        (S.mOut o).val ((j * op.Q + q) * (S.D rf).es + n) * S.outArr op L' inv' e o ((j * (S.D rf).nc + k) * op.Q + q) := by
    simp only [mul_sum]
    refine Eq.trans ?_ sum_comm
    refine sum_congr rfl fun j hj => ?_
    refine Eq.trans ?_ sum_comm
    refine sum_congr rfl fun q hq => ?_
    rw [mem_range] at hj hq
    have hr : j * op.Q + q < (op.out o).qc * op.Q := by
      calc _ < j * op.Q + op.Q := by omega
        _ = (j + 1) * op.Q := by ring
        _ ≤ _ := Nat.mul_le_mul_right _ hj
    rw [hN.out o ho ha _ hr c hc, hs, sum_mul]
    exact sum_congr rfl fun n _ => by ring
  generalize (op.out o).mode = em at a3 ⊢
  cases em with
  | none => exact absurd rfl a3
  | _ => exact key

/-- What an operator adds to its active output. -/
theorem action_active {op : Oper α} {S : Meaning α} {r : Nat} {ov : Nat} (hov : ∀ o < op.nout, (op.out o).vec ≠ .vec ov)
    (hr : ∀ o < op.nout, (op.out o).vec = .active → (op.out o).rid = some r) (L : Nat → Nat → α) (inv : VPtr) (t : Nat) :
    S.action op L inv (.vec ov) ov t = spread (S.D r) (fun e k n => ∑ o ∈ range op.nout,
      if (op.out o).vec = .active then S.elemOut op L inv o e k n else 0) t := by
  have hs : ∀ o < op.nout, ((op.out o).vec.ptr (.vec ov) = .vec ov ↔ (op.out o).vec = .active) := by
    intro o ho
    have := hov o ho
    cases hv : (op.out o).vec with
    | active => simp [FVec.ptr]
    | none => simp [FVec.ptr]
    | vec x =>
      rw [hv] at this
      simp only [FVec.ptr, VPtr.vec.injEq, reduceCtorEq, iff_false]
      exact fun hh => this (by rw [hh])
  unfold Meaning.action spread
  simp only [mul_sum]
  rw [show (∑ e ∈ range (S.D r).ne, ∑ k ∈ range (S.D r).nc, ∑ n ∈ range (S.D r).es, ∑ m ∈ range (S.D r).es,
      if (S.D r).lidx e m k = t then ∑ o ∈ range op.nout, (S.D r).coef e n m *
        (if (op.out o).vec = .active then S.elemOut op L inv o e k n else 0) else 0) =
      ∑ o ∈ range op.nout, ∑ e ∈ range (S.D r).ne, ∑ k ∈ range (S.D r).nc, ∑ n ∈ range (S.D r).es, ∑ m ∈ range (S.D r).es,
      if (S.D r).lidx e m k = t then (S.D r).coef e n m *
        (if (op.out o).vec = .active then S.elemOut op L inv o e k n else 0) else 0 from ?_]
  · refine sum_congr rfl fun o ho => ?_
    rw [mem_range] at ho
    by_cases ha : (op.out o).vec = .active
    · rw [if_pos ((hs o ho).2 ha)]
      unfold Meaning.adds Meaning.dat
      simp only [hr o ho ha, Option.getD_some, if_pos ha]
    · rw [if_neg (fun hh => ha ((hs o ho).1 hh))]
      simp only [if_neg ha, mul_zero, ite_self, sum_const_zero]
  · symm
    rw [sum_comm]
    refine sum_congr rfl fun e _ => ?_
    rw [sum_comm]
    refine sum_congr rfl fun k _ => ?_
    rw [sum_comm]
    refine sum_congr rfl fun n _ => ?_
    rw [sum_comm]
    refine sum_congr rfl fun m _ => ?_
    split
    · rfl
    · rw [sum_const_zero]

end

section
variable {rs : Nat → Rstr} {D : Nat → RData α} {lf lc : Int} {rf rc ρ : Nat} {b : Bas α} {B : Buf α} {nc μ : Nat}
variable {eps : α} {fine : OpI α} {pm : Buf α} {bc : Bas α} {wantR wantP : Bool} {lev : Level α}

/-- **C52.** The coarse operator is the Galerkin projection of the fine operator: applying it to `u` gives what the
restriction operator makes of the fine operator applied to the prolongation of `u`, provided that the levels are nested,
coarse functions are continuous on the fine level, the multiplicity vector supplied is one and no multiplicity is
negligible. The QFunction need not be linear. -/
theorem C52_galerkin (h : Created rs D lf lc rf rc ρ μ eps fine pm bc b B wantR wantP lev) {R P : OpI α}
    (hR : lev.restrict = some R) (hP : lev.prolong = some P) {m : Buf α} (hm : lev.mult = some m) {op oc : Oper α}
    {S Sc : Meaning α} (hSD : S.D = D) (hC : Coarsened op oc rf rc) (hN : Nested op oc S Sc rf rc B)
    (hpm : ∀ t < lf.toNat, pm.val t = 1)
    (hcnt : ∀ t < lf.toNat, 0 < (D rf).count t → ((D rf).count t : α) ≠ 0 ∧ eps < |((D rf).count t : α)|)
    (hconf : ∀ u, ∃ v, Interpolates D rf rc B u v) {L : Nat → Nat → α} {iv ov : Nat} (hμ : ∀ t < lf.toNat, L μ t = m.val t)
    (hiv : iv ≠ μ ∧ ∀ i < op.nin, (op.inp i).vec ≠ .vec iv) (hov : ∀ o < op.nout, (op.out o).vec ≠ .vec ov)
    (u : Nat → α) {s : Nat} (hs : s < lc.toNat) :
    Sc.action oc (Function.update L iv u) (.vec iv) (.vec ov) ov s =
      (levelMeaning D rf ρ B).action (R.oper lev.rstrs false scaleF)
        (Function.update L iv (S.action op (Function.update L iv
          ((levelMeaning D rf ρ B).action (P.oper lev.rstrs false scaleF) (Function.update L iv u) (.vec iv) (.vec ov) ov))
          (.vec iv) (.vec ov) ov)) (.vec iv) (.vec ov) ov s := by
  subst hSD
  obtain ⟨a1, a2, a3, a4⟩ := h.restrict hR
  obtain ⟨-, -, -, b4⟩ := h.prolong hP
  rw [a2] at a3 a4 b4 ⊢
  have z := h.level.sizes a3
  have hw : wantR = true ∨ wantP = true := by
    by_contra hw
    obtain ⟨c, x, -, h2, h3, h4⟩ := multigrid_inv h.ok
    rcases h4 with ⟨_, _, h4⟩ | ⟨h4, _⟩
    · rw [h4] at hP; cases hP
    · exact hw h4
  obtain ⟨-, -, -, m', hm', -, hmv⟩ := C46_created h hw
  rw [hm] at hm'; cases hm'
  obtain ⟨σ, h2, h3⟩ := made_signs h.level.fine a1
  have hLμ : ∀ u, Function.update L iv u μ = L μ := fun u => Function.update_of_ne (Ne.symm hiv.1) _ _
  have hpos : ∀ e < (S.D rf).ne, ∀ k < (S.D rf).nc, ∀ n < (S.D rf).es, 0 < (S.D rf).count ((S.D rf).lidx e n k) := by
    intro e he k hk n hn
    unfold RData.count
    refine sum_pos' (fun _ _ => Nat.zero_le _) ⟨e, mem_range.2 he, sum_pos' (fun _ _ => Nat.zero_le _) ⟨k, mem_range.2 hk,
      sum_pos' (fun _ _ => Nat.zero_le _) ⟨n, mem_range.2 hn, ?_⟩⟩⟩
    simp
  -- the prolongation of a conforming function
  have hpro : ∀ u v, Interpolates S.D rf rc B u v → ∀ t < lf.toNat, 0 < (S.D rf).count t →
      spread (S.D rf) (fun e k n => interpE B (S.D rc) u e k n * L μ ((S.D rf).lidx e n k)) t = v t := by
    intro u v hc t ht hct
    obtain ⟨c1, c2⟩ := hcnt t ht hct
    rw [spread_conforming h2 h3 hc, hμ t ht, hmv t ht, hpm t ht, mul_one, recipOf, if_pos c2,
      show ((S.D rf).count t : α) * (v t * (1 / ((S.D rf).count t : α))) =
        v t * (((S.D rf).count t : α) * (1 / ((S.D rf).count t : α))) by ring, mul_one_div_cancel c1, mul_one]
  have hrow : ∀ u v, Interpolates S.D rf rc B u v → ∀ e < (S.D rf).ne, ∀ k < (S.D rf).nc, ∀ n < (S.D rf).es,
      (S.D rf).row (spread (S.D rf) (fun e k n => interpE B (S.D rc) u e k n * L μ ((S.D rf).lidx e n k))) e k n =
        interpE B (S.D rc) u e k n := by
    intro u v hc e he k hk n hn
    rw [hc e he k hk n hn, row_diag h3 _ _ _ hn, row_diag h3 _ _ _ hn,
      hpro u v hc _ (made_rng h.level.fine e he n hn k hk) (hpos e he k hk n hn)]
  rw [restrict_action h.level a3 a4, hLμ, Function.update_self]
  set x : Nat → α := (levelMeaning S.D rf ρ B).action (P.oper (Function.update rs ρ (unsignedCopy (rs rf))) false scaleF)
    (Function.update L iv u) (.vec iv) (.vec ov) ov with hx
  have hxs : x = spread (S.D rf) (fun e k n => interpE B (S.D rc) u e k n * L μ ((S.D rf).lidx e n k)) := by
    funext t
    rw [hx, prolong_action h.level a3 b4, hLμ, Function.update_self]
  obtain ⟨uf, huf⟩ := hconf u
  -- both operators see the same at quadrature points
  rcases Nat.eq_zero_or_pos (S.D rf).nc with hnc0 | hnc
  · have hz : ∀ g : Nat → Nat → Nat → α, spread (S.D rc) g s = 0 := by
      intro g
      unfold spread
      rw [z.ncc, ← z.ncf, hnc0]
      simp
    rw [hz, action_active (r := rc) (fun o ho => by rw [(hC.outVec o (hC.nout ▸ ho)).1]; exact hov o (hC.nout ▸ ho))
      (fun o ho ha => (hC.outActive o (hC.nout ▸ ho) (by rw [← (hC.outVec o (hC.nout ▸ ho)).1]; exact ha)).2.1), hN.D, hz]
  have hin : ∀ e < (S.D rf).ne, Sc.inArr oc (Function.update L iv u) (.vec iv) e =
      S.inArr op (Function.update L iv x) (.vec iv) e := by
    intro e he
    · refine inArr_nested hC hN (z.ncc.trans z.ncf.symm) hnc (fun k hk n hn => ?_) (fun i hi ha => ?_)
      · rw [Function.update_self, Function.update_self, hxs, hrow u uf huf e he k hk n hn]
      · have := hiv.2 i hi
        cases hv : (op.inp i).vec with
        | active => exact absurd hv ha
        | none => rfl
        | vec y =>
          rw [hv] at this
          have hne : y ≠ iv := fun hh => this (by rw [hh])
          simp only [FVec.ptr, cont, Function.update_of_ne hne]
  set g : Nat → Nat → Nat → α := fun e k n => ∑ o ∈ range op.nout,
    if (op.out o).vec = .active then S.elemOut op (Function.update L iv x) (.vec iv) o e k n else 0 with hg
  have hfine : ∀ t, S.action op (Function.update L iv x) (.vec iv) (.vec ov) ov t = spread (S.D rf) g t := fun t =>
    action_active hov (fun o ho ha => (hC.outActive o ho ha).1) _ _ t
  have hcoarse : Sc.action oc (Function.update L iv u) (.vec iv) (.vec ov) ov s =
      spread (S.D rc) (fun e k c => ∑ n ∈ range (S.D rf).es, B.val (n * (S.D rc).es + c) * g e k n) s := by
    rw [action_active (r := rc) (fun o ho => by rw [(hC.outVec o (hC.nout ▸ ho)).1]; exact hov o (hC.nout ▸ ho))
      (fun o ho ha => (hC.outActive o (hC.nout ▸ ho) (by rw [← (hC.outVec o (hC.nout ▸ ho)).1]; exact ha)).2.1), hN.D]
    unfold spread
    refine sum_congr rfl fun e he => sum_congr rfl fun k hk => sum_congr rfl fun c hc => sum_congr rfl fun m _ => ?_
    rw [mem_range] at he hk hc
    congr 2
    rw [hg, hC.nout]
    simp only [mul_sum]
    rw [sum_comm]
    refine sum_congr rfl fun o ho => ?_
    rw [mem_range] at ho
    rw [(hC.outVec o ho).1]
    split
    · rename_i ha
      rw [elemOut_nested hC hN (z.ncc.trans z.ncf.symm) (hin e (by rw [← z.ne]; exact he)) ho ha k hc]
    · simp
  rw [hcoarse]
  -- duality with the unit vector
  set v : Nat → α := fun t => if t = s then 1 else 0 with hv
  have hunit : ∀ G : Nat → α, ∑ t ∈ range lc.toNat, v t * G t = G s := by
    intro G
    rw [hv]
    simp only [ite_mul, one_mul, zero_mul]
    rw [sum_ite_eq' (range lc.toNat) s, if_pos (mem_range.2 hs)]
  obtain ⟨vf, hvf⟩ := hconf v
  have e1 := hunit (spread (S.D rc) (fun e k c => ∑ n ∈ range (S.D rf).es, B.val (n * (S.D rc).es + c) * g e k n))
  have e2 := transfer_adjoint h.level z v (spread (S.D rf) g) (L μ)
  rw [hunit] at e2
  simp only [funext hfine]
  rw [← e2, ← e1, spread_adjoint _ (made_rng h.level.coarse)]
  simp only [mul_comm (spread (S.D rf) g _)]
  rw [spread_adjoint _ (made_rng h.level.fine), z.ne, z.ncc, z.ncf]
  refine sum_congr rfl fun e he => sum_congr rfl fun k hk => ?_
  rw [mem_range] at he hk
  have : ∀ n ∈ range (S.D rf).es, (S.D rf).row (fun t => spread (S.D rf) (fun e k n => interpE B (S.D rc) v e k n *
      L μ ((S.D rf).lidx e n k)) t) e k n * g e k n = ∑ c ∈ range (S.D rc).es, (S.D rc).row v e k c *
      (B.val (n * (S.D rc).es + c) * g e k n) := by
    intro n hn
    rw [hrow v vf hvf e he k (by rw [z.ncf]; exact hk) n (mem_range.1 hn)]
    unfold interpE
    rw [sum_mul]
    exact sum_congr rfl fun c _ => by ring
  rw [sum_congr rfl this]
  simp only [mul_sum]
  exact sum_comm

/-- **C52.** The operator created and the fine operator are related as `C52_galerkin` asks, if the coarse basis has the
quadrature points of the fine operator. -/
theorem C52_coarsened (h : Created rs D lf lc rf rc ρ μ eps fine pm bc b B wantR wantP lev)
    (hw : wantR = true ∨ wantP = true) (hf : Built rs True fine) (hsz : SizedAll rs bc) (hQ : bc.Q = fine.Q)
    (hex : ∃ i < fine.qf.inputs.length, ∃ v, fine.inF i = .set v ∧ v.vec = .active) (isId : Bool)
    (f : (Nat → Nat → α) → Nat → Nat → α) :
    Coarsened (fine.oper rs isId f) (lev.coarse.oper rs isId f) rf rc := by
  obtain ⟨c1, c2, c3, c4, c5, c6⟩ := C46_coarse hf hsz h.ok
  have hag : (rs rc).numElem = (rs rf).numElem := by
    obtain ⟨-, a2, -, -, -, a6, a7⟩ := h.parts hw
    rcases hw with hw | hw
    · obtain ⟨s, hs⟩ := a6 hw
      have := (h.restrict hs).2.2.1.nec
      rw [a2, h.level.urf, h.level.urc] at this
      exact this
    · obtain ⟨s, hs⟩ := a7 hw
      have := (h.prolong hs).2.2.1.nec
      rw [a2, h.level.urf, h.level.urc] at this
      exact this
  have hin : ∀ i < fine.qf.inputs.length, ∃ v g, fine.inF i = .set v ∧ lev.coarse.inF i = .set (coarsen rc bc v) ∧
      fine.qf.inputs[i]? = some g ∧ Agrees rs fine true g v ∧ Agrees rs lev.coarse true g (coarsen rc bc v) := by
    intro i hi
    obtain ⟨v, h1, h2⟩ := c5 i hi
    obtain ⟨_, g, h3, h4⟩ := hf.inv.agrees true i v h1
    obtain ⟨_, g', h5, h6⟩ := c1.inv.agrees true i _ h2
    have : (lev.coarse.tab true)[i]? = some g := by
      show lev.coarse.qf.inputs[i]? = some g
      rw [c3]; exact h3
    rw [this] at h5; cases h5
    exact ⟨v, g, h1, h2, h3, h4, h6⟩
  have hout : ∀ i < fine.qf.outputs.length, ∃ v g, fine.outF i = .set v ∧ lev.coarse.outF i = .set (coarsen rc bc v) ∧
      fine.qf.outputs[i]? = some g ∧ Agrees rs fine false g v ∧ Agrees rs lev.coarse false g (coarsen rc bc v) := by
    intro i hi
    obtain ⟨v, h1, h2⟩ := c6 i hi
    obtain ⟨_, g, h3, h4⟩ := hf.inv.agrees false i v h1
    obtain ⟨_, g', h5, h6⟩ := c1.inv.agrees false i _ h2
    have : (lev.coarse.tab false)[i]? = some g := by
      show lev.coarse.qf.outputs[i]? = some g
      rw [c4]; exact h3
    rw [this] at h5; cases h5
    exact ⟨v, g, h1, h2, h3, h4, h6⟩
  have inp1 : ∀ i v g, fine.inF i = .set v → fine.qf.inputs[i]? = some g →
      (fine.oper rs isId f).inp i = ⟨v.vec, v.rid, v.basis, emode g.mode, g.size.toNat⟩ := by
    intro i v g h1 h2
    show (match fine.inF i, fine.qf.inputs[i]? with
      | .set v, some g => (⟨v.vec, v.rid, v.basis, emode g.mode, g.size.toNat⟩ : OField α)
      | _, _ => ⟨.none, Option.none, Option.none, .none, 0⟩) = _
    rw [h1, h2]
  have inp2 : ∀ i v g, lev.coarse.inF i = .set v → fine.qf.inputs[i]? = some g →
      (lev.coarse.oper rs isId f).inp i = ⟨v.vec, v.rid, v.basis, emode g.mode, g.size.toNat⟩ := by
    intro i v g h1 h2
    show (match lev.coarse.inF i, lev.coarse.qf.inputs[i]? with
      | .set v, some g => (⟨v.vec, v.rid, v.basis, emode g.mode, g.size.toNat⟩ : OField α)
      | _, _ => ⟨.none, Option.none, Option.none, .none, 0⟩) = _
    rw [h1, c3, h2]
  have out1 : ∀ i v g, fine.outF i = .set v → fine.qf.outputs[i]? = some g →
      (fine.oper rs isId f).out i = ⟨v.vec, v.rid, v.basis, emode g.mode, g.size.toNat⟩ := by
    intro i v g h1 h2
    show (match fine.outF i, fine.qf.outputs[i]? with
      | .set v, some g => (⟨v.vec, v.rid, v.basis, emode g.mode, g.size.toNat⟩ : OField α)
      | _, _ => ⟨.none, Option.none, Option.none, .none, 0⟩) = _
    rw [h1, h2]
  have out2 : ∀ i v g, lev.coarse.outF i = .set v → fine.qf.outputs[i]? = some g →
      (lev.coarse.oper rs isId f).out i = ⟨v.vec, v.rid, v.basis, emode g.mode, g.size.toNat⟩ := by
    intro i v g h1 h2
    show (match lev.coarse.outF i, lev.coarse.qf.outputs[i]? with
      | .set v, some g => (⟨v.vec, v.rid, v.basis, emode g.mode, g.size.toNat⟩ : OField α)
      | _, _ => ⟨.none, Option.none, Option.none, .none, 0⟩) = _
    rw [h1, c4, h2]
  have hvec : ∀ v : FVal α, (coarsen rc bc v).vec = v.vec := by
    intro v; unfold coarsen; split
    · rename_i hh; exact hh.symm
    · rfl
  have hact : ∀ v : FVal α, v.vec = .active → (coarsen rc bc v).rid = some rc ∧ (coarsen rc bc v).basis = some bc := by
    intro v hv; unfold coarsen; rw [if_pos hv]; exact ⟨rfl, rfl⟩
  have hpas : ∀ v : FVal α, v.vec ≠ .active → coarsen rc bc v = v := by
    intro v hv; unfold coarsen; rw [if_neg hv]
  obtain ⟨i0, hi0, v0, hv0, ha0⟩ := hex
  obtain ⟨v0', g0, k1, k2, k3, k4, k5⟩ := hin i0 hi0
  rw [hv0] at k1; cases k1
  have hne : lev.coarse.ne = fine.ne := by
    rw [← (k5.elems rc (hact v0 ha0).1).2, ← (k4.elems rf (h.active.1 i0 hi0 v0 hv0 ha0)).2, hag]
  have hQ' : lev.coarse.Q = fine.Q := by
    have := k5.points
    unfold FVal.qpts at this
    rw [(hact v0 ha0).2] at this
    exact this.symm.trans hQ
  refine ⟨?_, hQ', ?_, ?_, rfl, rfl, ?_, ?_, ?_, ?_, ?_⟩
  · show lev.coarse.ne.toNat = fine.ne.toNat
    rw [hne]
  · show lev.coarse.qf.inputs.length = _
    rw [c3]; rfl
  · show lev.coarse.qf.outputs.length = _
    rw [c4]; rfl
  · intro i hi
    obtain ⟨v, g, h1, h2, h3, _⟩ := hin i hi
    rw [inp1 i v g h1 h3, inp2 i _ g h2 h3]
    exact ⟨hvec v, rfl, rfl⟩
  · intro i hi
    obtain ⟨v, g, h1, h2, h3, _⟩ := hout i hi
    rw [out1 i v g h1 h3, out2 i _ g h2 h3]
    exact ⟨hvec v, rfl⟩
  · intro i hi ha
    obtain ⟨v, g, h1, h2, h3, h4, h5⟩ := hin i hi
    rw [inp1 i v g h1 h3] at ha ⊢
    rw [inp2 i _ g h2 h3]
    refine ⟨h.active.1 i hi v h1 ha, (hact v ha).1, fun hm => ?_⟩
    have := h5.suits.basis.2 (emode_none.1 hm)
    rw [(hact v ha).2] at this; cases this
  · intro i hi ha
    obtain ⟨v, g, h1, h2, h3, _⟩ := hin i hi
    rw [inp1 i v g h1 h3] at ha ⊢
    rw [inp2 i _ g h2 h3, hpas v ha]
  · intro i hi ha
    obtain ⟨v, g, h1, h2, h3, h4, h5⟩ := hout i hi
    rw [out1 i v g h1 h3] at ha ⊢
    rw [out2 i _ g h2 h3]
    refine ⟨h.active.2 i hi v h1 ha, (hact v ha).1, fun hm => ?_⟩
    have := h5.suits.basis.2 (emode_none.1 hm)
    rw [(hact v ha).2] at this; cases this

end

end Operator
end Verif
