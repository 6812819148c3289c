import Verif.Operator.Multigrid
import Verif.Operator.Ready
import Verif.Restriction.Props

/-!
# Multigrid levels: helper lemmas
-/

set_option linter.unusedSectionVars false

namespace Verif
namespace Restriction

open Finset

variable {α : Type} [CommRing α]

/-- The data of the restriction without signs. -/
def RData.unsigned (D : RData α) : RData α := { D with coef := fun _ => idCoef }

theorem RData.unsigned_row (D : RData α) (u : Nat → α) {e k n : Nat} (hn : n < D.es) :
    D.unsigned.row u e k n = u (D.lidx e n k) := by
  unfold RData.row RData.unsigned
  simp only [idCoef, ite_mul, one_mul, zero_mul]
  rw [sum_ite_eq' (range D.es) n, if_pos (mem_range.2 hn)]

theorem create_rtype {checked : Bool} {ne es nc cs lSize : Int} {offsets : Buf Int} {o : Orient} {r : Rstr}
    (h : create checked ne es nc cs lSize offsets o = .ok r) : r.rtype = o.rtype := by
  unfold create at h
  obtain ⟨_, _, h⟩ := Res.bind_eq_ok.1 h
  obtain ⟨_, _, h⟩ := Res.bind_eq_ok.1 h
  obtain ⟨_, _, h⟩ := Res.bind_eq_ok.1 h
  obtain ⟨_, _, h⟩ := Res.bind_eq_ok.1 h
  obtain ⟨r1, h1, h⟩ := Res.bind_eq_ok.1 h
  unfold createRef at h1
  obtain ⟨_, _, h1⟩ := Res.bind_eq_ok.1 h1
  cases h1
  obtain ⟨_, _, h⟩ := Res.bind_eq_ok.1 h
  cases o with
  | none => cases h; rfl
  | signs s => obtain ⟨_, _, h⟩ := Res.bind_eq_ok.1 h; cases h; rfl
  | curl c => obtain ⟨_, _, h⟩ := Res.bind_eq_ok.1 h; cases h; rfl

end Restriction

namespace Operator

open Finset
open Restriction
open Basis (Bas EMode)

section
variable {α : Type} [CommRing α]

/-- The copy acts as the original applied without signs. -/
theorem unsignedCopy_apply {r : Rstr} (h : r.rtype ≠ .curlOriented) (tm : TMode) (u v : Buf α) :
    Restriction.apply (unsignedCopy r) .plain tm u v = Restriction.apply r .unsigned tm u v := by
  obtain ⟨rt, a1, a2, a3, a4, a5, a6, a7, a8, a9, a10, a11, a12, a13⟩ := r
  cases rt with
  | curlOriented => exact absurd rfl h
  | _ => cases tm <;> rfl

theorem create_unsigned {checked : Bool} {ne es nc cs lSize : Int} {offsets : Buf Int} {s : Buf Bool} {r : Rstr}
    (h : create checked ne es nc cs lSize offsets (.signs s) = .ok r) :
    create checked ne es nc cs lSize offsets .none = .ok (unsignedCopy r) := by
  unfold create at h ⊢
  obtain ⟨_, e1, h⟩ := Res.bind_eq_ok.1 h
  obtain ⟨_, e2, h⟩ := Res.bind_eq_ok.1 h
  obtain ⟨_, e3, h⟩ := Res.bind_eq_ok.1 h
  obtain ⟨_, e4, h⟩ := Res.bind_eq_ok.1 h
  obtain ⟨r1, h1, h⟩ := Res.bind_eq_ok.1 h
  unfold createRef at h1 ⊢
  obtain ⟨_, e5, h1⟩ := Res.bind_eq_ok.1 h1
  cases h1
  obtain ⟨_, e6, h⟩ := Res.bind_eq_ok.1 h
  obtain ⟨_, e7, h⟩ := Res.bind_eq_ok.1 h
  cases h
  simp only [e1, e2, e3, e4, Res.bind_ok]
  dsimp only at e5
  simp only [e5, Res.bind_ok, e6]
  rfl

theorem createBlocked_unsigned {checked : Bool} {ne es bs nc : Nat} {cs lSize : Int} {offsets : Buf Int} {s : Buf Bool}
    {r : Rstr} (h : createBlocked checked ne es bs nc cs lSize offsets (.signs s) = .ok r) :
    createBlocked checked ne es bs nc cs lSize offsets .none = .ok (unsignedCopy r) := by
  unfold createBlocked at h ⊢
  obtain ⟨_, e1, h⟩ := Res.bind_eq_ok.1 h
  simp only [e1, Res.bind_ok]
  obtain ⟨_, e2, h⟩ := Res.bind_eq_ok.1 h
  obtain ⟨_, e3, h⟩ := Res.bind_eq_ok.1 h
  obtain ⟨_, e4, h⟩ := Res.bind_eq_ok.1 h
  obtain ⟨_, e5, h⟩ := Res.bind_eq_ok.1 h
  obtain ⟨_, e6, h⟩ := Res.bind_eq_ok.1 h
  obtain ⟨_, e7, h⟩ := Res.bind_eq_ok.1 h
  obtain ⟨_, e8, h⟩ := Res.bind_eq_ok.1 h
  rw [show Res.check (0 ≤ (ne : Int)) .dimension = .ok () from Res.check_true (by omega) _]
  simp only [e2, e3, e4, e5, e6, e7, Res.bind_ok]
  unfold createRef at h ⊢
  obtain ⟨_, e9, h⟩ := Res.bind_eq_ok.1 h
  cases h
  dsimp only at e9
  simp only [e9, Res.bind_ok]
  rfl

/-- What the unsigned copy of a restriction is. -/
theorem made_copy {r : Rstr} {bs : Nat} {l : Int} {D : RData α} (h : Made .plain r bs l D) (hr : r.rtype ≠ .curlOriented) :
    Made .plain (unsignedCopy r) bs l D.unsigned := by
  cases h with
  | @offset checked ne es nc cs _ offsets o _ h hf hin =>
    have ht := create_rtype h
    cases o with
    | none =>
      have : unsignedCopy r = r := by unfold unsignedCopy; rw [ht]; rfl
      rw [this]; exact Made.offset h hf hin
    | signs s => exact Made.offset (create_unsigned h) trivial hin
    | curl c => exact absurd ht hr
  | strided h hin =>
    have : unsignedCopy r = r := by
      unfold createStrided at h
      obtain ⟨_, _, h⟩ := Res.bind_eq_ok.1 h
      obtain ⟨_, _, h⟩ := Res.bind_eq_ok.1 h
      obtain ⟨_, _, h⟩ := Res.bind_eq_ok.1 h
      obtain ⟨_, _, h⟩ := Res.bind_eq_ok.1 h
      cases h; rfl
    rw [this]; exact Made.strided h hin
  | @blocked checked ne es bs nc cs _ offsets o _ h hl ho hf hin =>
    cases o with
    | none =>
      have ht : r.rtype = .standard := by
        unfold createBlocked createRef at h
        obtain ⟨_, _, h⟩ := Res.bind_eq_ok.1 h
        obtain ⟨_, _, h⟩ := Res.bind_eq_ok.1 h
        obtain ⟨_, _, h⟩ := Res.bind_eq_ok.1 h
        obtain ⟨_, _, h⟩ := Res.bind_eq_ok.1 h
        obtain ⟨_, _, h⟩ := Res.bind_eq_ok.1 h
        obtain ⟨_, _, h⟩ := Res.bind_eq_ok.1 h
        obtain ⟨_, _, h⟩ := Res.bind_eq_ok.1 h
        obtain ⟨_, _, h⟩ := Res.bind_eq_ok.1 h
        obtain ⟨_, _, h⟩ := Res.bind_eq_ok.1 h
        cases h; rfl
      have : unsignedCopy r = r := by unfold unsignedCopy; rw [ht]
      rw [this]; exact Made.blocked h hl ho hf hin
    | signs s => exact Made.blocked (createBlocked_unsigned h) hl trivial trivial hin
    | curl c =>
      refine absurd ?_ hr
      unfold createBlocked createRef at h
      obtain ⟨_, _, h⟩ := Res.bind_eq_ok.1 h
      obtain ⟨_, _, h⟩ := Res.bind_eq_ok.1 h
      obtain ⟨_, _, h⟩ := Res.bind_eq_ok.1 h
      obtain ⟨_, _, h⟩ := Res.bind_eq_ok.1 h
      obtain ⟨_, _, h⟩ := Res.bind_eq_ok.1 h
      obtain ⟨_, _, h⟩ := Res.bind_eq_ok.1 h
      obtain ⟨_, _, h⟩ := Res.bind_eq_ok.1 h
      obtain ⟨_, _, h⟩ := Res.bind_eq_ok.1 h
      obtain ⟨_, _, h⟩ := Res.bind_eq_ok.1 h
      obtain ⟨_, _, h⟩ := Res.bind_eq_ok.1 h
      cases h; rfl
  | blockedStrided h hin =>
    have : unsignedCopy r = r := by
      unfold createBlockedStrided at h
      obtain ⟨_, _, h⟩ := Res.bind_eq_ok.1 h
      obtain ⟨_, _, h⟩ := Res.bind_eq_ok.1 h
      obtain ⟨_, _, h⟩ := Res.bind_eq_ok.1 h
      obtain ⟨_, _, h⟩ := Res.bind_eq_ok.1 h
      obtain ⟨_, _, h⟩ := Res.bind_eq_ok.1 h
      obtain ⟨_, _, h⟩ := Res.bind_eq_ok.1 h
      cases h; rfl
    rw [this]; exact Made.blockedStrided h hin

end

/-! ## The vector of inverse multiplicities -/

section
variable {α : Type} [Field α] [LinearOrder α]

/-- Number of nodes of all elements that share entry `t`, times the multiplicity given. -/
def multOf (D : RData α) (pm : Nat → α) (t : Nat) : α := (D.count t : α) * pm t

/-- The reciprocal that `CeedVectorReciprocal` takes. -/
def recipOf (eps z : α) : α := if eps < |z| then 1 / z else z

/-- `mult_vec` can be computed if the vector given is long enough. -/
theorem multVec_run {eps : α} {r : Rstr} {l : Int} {D : RData α} {pm : Buf α} (h : Made .plain r 1 l D)
    (hr : r.rtype ≠ .curlOriented) (hpm : l ≤ pm.len) : ∃ m, multVec eps r pm = .ok m ∧
    m.len = l.toNat ∧ ∀ t < l.toNat, m.val t = recipOf eps (multOf D pm.val t) := by
  obtain ⟨hrep, -, hl⟩ := (made_copy h hr).rep
  have hls : (unsignedCopy r).lSize = r.lSize := by unfold unsignedCopy; cases r.rtype <;> rfl
  have hes : (unsignedCopy r).eSize = r.eSize := by unfold unsignedCopy; cases r.rtype <;> rfl
  obtain ⟨ev, e1, g2, g3, _⟩ := hrep.apply_nt (u := pm) (v := ⟨r.eSize, fun _ => 0⟩) (by omega) (by rw [hes])
  have e2 := hrep.apply_t (u := ev) (v := ⟨r.lSize.toNat, fun _ => 0⟩) (by rw [hes, g2]) (by dsimp only; omega)
  have hm : ∀ t, D.unsigned.scatter (unsignedCopy r).blockSize ev.val t = multOf D pm.val t := by
    intro t
    unfold RData.scatter multOf RData.count
    push_cast
    rw [sum_mul]
    refine sum_congr rfl fun x hx => ?_
    rw [sum_mul]
    refine sum_congr rfl fun k hk => ?_
    rw [mem_range] at hx hk
    rw [sum_comm, sum_mul]
    refine sum_congr rfl fun n hn => ?_
    rw [mem_range] at hn
    by_cases hlt : D.lidx x n k = t
    · have h0 : D.unsigned.lidx x n k = t := hlt
      simp only [h0, hlt, if_true, one_mul]
      rw [sum_eq_single n]
      · have h1 := g3 x hx k hk n hn
        rw [h1]
        show D.unsigned.coef x n n * D.unsigned.row pm.val x k n = _
        rw [RData.unsigned_row D pm.val hn, hlt]
        simp [RData.unsigned, idCoef]
      · intro j _ hj
        simp [RData.unsigned, idCoef, Ne.symm hj]
      · intro hh; exact absurd (mem_range.2 hn) hh
    · have h0 : ¬ D.unsigned.lidx x n k = t := hlt
      simp [h0, hlt]
  have step : ∀ i < r.lSize.toNat, ∀ m : Buf α, (m.len = r.lSize.toNat ∧ ∀ t < r.lSize.toNat, m.val t =
      if t < i then recipOf eps (multOf D pm.val t) else multOf D pm.val t) →
      ∃ m', (do
        let z ← m.rd i
        if eps < |z| then m.wr i (1 / z) else .ok m) = .ok m' ∧ (m'.len = r.lSize.toNat ∧ ∀ t < r.lSize.toNat, m'.val t =
          if t < i + 1 then recipOf eps (multOf D pm.val t) else multOf D pm.val t) := by
    rintro i hi m ⟨a1, a2⟩
    have hv := a2 i hi
    rw [if_neg (by omega)] at hv
    rw [Buf.rd_lt (by omega), Res.bind_ok, hv]
    by_cases hc : eps < |multOf D pm.val i|
    · rw [if_pos hc, Buf.wr_lt (by omega)]
      refine ⟨_, rfl, a1, fun t ht => ?_⟩
      dsimp only
      by_cases hti : t = i
      · subst hti
        rw [if_pos rfl, if_pos (by omega), recipOf, if_pos hc]
      · rw [if_neg hti, a2 t ht]
        by_cases h2 : t < i
        · rw [if_pos h2, if_pos (by omega)]
        · rw [if_neg h2, if_neg (by omega)]
    · rw [if_neg hc]
      refine ⟨_, rfl, a1, fun t ht => ?_⟩
      rw [a2 t ht]
      by_cases hti : t = i
      · subst hti
        rw [if_neg (by omega), if_pos (by omega), recipOf, if_neg hc]
      · by_cases h2 : t < i
        · rw [if_pos h2, if_pos (by omega)]
        · rw [if_neg h2, if_neg (by omega)]
  obtain ⟨m', q1, q2, q3⟩ := loop_inv (σ := Buf α) (n := r.lSize.toNat)
    (s := ⟨r.lSize.toNat, fun t => 0 + D.unsigned.scatter (unsignedCopy r).blockSize ev.val t⟩)
    (fun i m => m.len = r.lSize.toNat ∧ ∀ t < r.lSize.toNat, m.val t =
      if t < i then recipOf eps (multOf D pm.val t) else multOf D pm.val t)
    ⟨rfl, fun t _ => by simp [hm]⟩ step
  refine ⟨m', ?_, ?_, ?_⟩
  · unfold multVec
    rw [← unsignedCopy_apply hr, e1, Res.bind_ok]
    rw [← unsignedCopy_apply hr, e2, Res.bind_ok]
    exact q1
  · have : l = r.lSize := by omega
    rw [this]; exact q2
  · have : l = r.lSize := by omega
    rw [this]
    exact fun t ht => by rw [q3 t ht, if_pos ht]

/-- Otherwise `CEED_ERROR_DIMENSION` is returned. -/
theorem multVec_short {eps : α} {r : Rstr} {pm : Buf α} (hpm : ¬ r.lSize ≤ pm.len) : multVec eps r pm = .err .dimension := by
  unfold multVec Restriction.apply
  simp only [Res.check_false hpm, Res.bind_err]

/-- Contents of `mult_vec`. -/
theorem multVec_ok {eps : α} {r : Rstr} {l : Int} {D : RData α} {pm m : Buf α} (h : Made .plain r 1 l D)
    (hr : r.rtype ≠ .curlOriented) (e : multVec eps r pm = .ok m) :
    l ≤ pm.len ∧ m.len = l.toNat ∧ ∀ t < l.toNat, m.val t = recipOf eps (multOf D pm.val t) := by
  have hl := h.rep.2.2
  by_cases hpm : l ≤ pm.len
  · obtain ⟨m', e', a, b⟩ := multVec_run (eps := eps) h hr hpm
    rw [e'] at e
    cases e
    exact ⟨hpm, a, b⟩
  · rw [multVec_short (by omega)] at e
    cases e

end

/-! ## The transfer operators -/

section
variable {α : Type}

theorem runOn_ok {σ β : Type _} {m : M σ β} {s s' : σ} (h : runOn m s = .ok s') : ∃ a, m s = .ok s' a := by
  unfold runOn at h
  split at h
  · rename_i x a e; cases h; exact ⟨a, e⟩
  · cases h
  · cases h

theorem runOn_bind_ok {σ β γ : Type _} {m : M σ β} {f : β → M σ γ} {s s' : σ} (h : runOn (m >>= f) s = .ok s') :
    ∃ s1 a, m s = .ok s1 a ∧ runOn (f a) s1 = .ok s' := by
  obtain ⟨c, h⟩ := runOn_ok h
  rw [M.bind_apply] at h
  cases e : m s with
  | ok s1 a =>
    rw [e, Out.bind_ok] at h
    exact ⟨s1, a, rfl, by unfold runOn; rw [h]⟩
  | err s1 x => rw [e, Out.bind_err] at h; cases h
  | ub => rw [e] at h; cases h

/-- An accepted call, when the field is known. -/
theorem setField_inv {rs : Nat → Rstr} {s s' : OpI α} {name : List Char} {r : Arg Nat} {b : Arg (Bas α)} {v : FVec}
    {isIn : Bool} {i : Nat} {f : QFunction.Field} (e : setField rs name r b (some v) s = .ok s' ())
    (hl : locate name s.qf = some (isIn, i, f)) :
    s.immutable = false ∧ Accepted rs s r b v isIn f ∧ s' = s.freeze.fill rs isIn i name r b v := by
  by_cases h : s.immutable = false ∧ ∃ w isIn i f, some v = some w ∧ locate name s.qf = some (isIn, i, f) ∧
      Accepted rs s r b w isIn f
  · obtain ⟨h1, w, k, j, g, hw, hg, ha⟩ := h
    cases hw
    rw [hl] at hg
    cases hg
    rw [setField_ok h1 hl ha] at e
    cases e
    exact ⟨h1, ha, rfl⟩
  · obtain ⟨s1, c, he, _⟩ := setField_err rs s r b (some v) name h
    rw [he] at e
    cases e

/-- The QFunction of the restriction operator. -/
def restrictQ (nc : Nat) : QFunction.QFunc :=
  ⟨1, [⟨"input".toList, nc, .none⟩, ⟨"scale".toList, nc, .none⟩], [⟨"output".toList, nc, .interp⟩], false⟩

/-- The QFunction of the prolongation operator. -/
def prolongQ (nc : Nat) : QFunction.QFunc :=
  ⟨1, [⟨"input".toList, nc, .interp⟩, ⟨"scale".toList, nc, .none⟩], [⟨"output".toList, nc, .none⟩], false⟩

theorem restrictQ_run (nc : Nat) : runOn (do
    QFunction.addInput "input".toList nc .none
    QFunction.addInput "scale".toList nc .none
    QFunction.addOutput "output".toList nc .interp) (QFunction.QFunc.create 1) = .ok (restrictQ nc) := rfl

theorem prolongQ_run (nc : Nat) : runOn (do
    QFunction.addInput "input".toList nc .interp
    QFunction.addInput "scale".toList nc .none
    QFunction.addOutput "output".toList nc .none) (QFunction.QFunc.create 1) = .ok (prolongQ nc) := rfl

/-- The operator that the backend sees has two inputs and one output. -/
structure IsTransfer [CommRing α] (op : Oper α) (rs : Nat → Rstr) (r : Nat) (x y z : OField α)
    (F : (Nat → Nat → α) → Nat → Nat → α) : Prop where
  ne : op.ne = (rs r).numElem.toNat
  Q : op.Q = (rs r).elemSize
  nin : op.nin = 2
  nout : op.nout = 1
  inp0 : op.inp 0 = x
  inp1 : op.inp 1 = y
  out0 : op.out 0 = z
  rstrs : op.rstrs = rs
  isId : op.isId = false
  f : op.f = F

/-- The parts of the transfer operators agree. -/
structure Agree (rs : Nat → Rstr) (nc rf ρ rc : Nat) (b : Bas α) : Prop where
  ncf : (rs rf).numComp = nc
  ncs : (rs ρ).numComp = nc
  ncc : (rs rc).numComp = b.nc
  ncb : nc = b.nc * b.qComp .interp
  nes : (rs ρ).numElem = (rs rf).numElem
  nec : (rs rc).numElem = (rs rf).numElem
  ess : (rs ρ).elemSize = (rs rf).elemSize
  bQ : b.Q = (rs rf).elemSize

/-- Three accepted calls on a new operator, for the fields of a QFunction with two inputs and one output. -/
theorem three_fields [CommRing α] {rs : Nat → Rstr} {q : QFunction.QFunc} {f1 f2 f3 : QFunction.Field} (hin : q.inputs = [f1, f2])
    (hout : q.outputs = [f3]) (hn : f1.name ≠ f2.name ∧ f1.name ≠ f3.name ∧ f2.name ≠ f3.name)
    {r1 r2 r3 : Nat} {b1 b2 b3 : Arg (Bas α)} {v1 v2 v3 : FVec} {s : OpI α}
    (e : runOn (do
      setField rs f1.name (.obj r1) b1 (some v1)
      setField rs f2.name (.obj r2) b2 (some v2)
      setField rs f3.name (.obj r3) b3 (some v3)
      checkReady) (OpI.create q) = .ok s) (hQ : 0 < argQ rs (.obj r1) b1) (F : (Nat → Nat → α) → Nat → Nat → α) :
    (Suits rs f1 (some r1) b1.opt ∧ Suits rs f2 (some r2) b2.opt ∧ Suits rs f3 (some r3) b3.opt) ∧
    ((rs r2).numElem = (rs r1).numElem ∧ (rs r3).numElem = (rs r1).numElem) ∧
    (argQ rs (.obj r2) b2 = argQ rs (.obj r1) b1 ∧ argQ rs (.obj r3) b3 = argQ rs (.obj r1) b1) ∧
    (s.oper rs false F).ne = (rs r1).numElem.toNat ∧ (s.oper rs false F).Q = argQ rs (.obj r1) b1 ∧
    (s.oper rs false F).nin = 2 ∧ (s.oper rs false F).nout = 1 ∧
    (s.oper rs false F).inp 0 = ⟨v1, some r1, b1.opt, emode f1.mode, f1.size.toNat⟩ ∧
    (s.oper rs false F).inp 1 = ⟨v2, some r2, b2.opt, emode f2.mode, f2.size.toNat⟩ ∧
    (s.oper rs false F).out 0 = ⟨v3, some r3, b3.opt, emode f3.mode, f3.size.toNat⟩ := by
  obtain ⟨n12, n13, n23⟩ := hn
  have l1 : ∀ x : QFunction.QFunc, x.inputs = [f1, f2] → locate f1.name x = some (true, 0, f1) := by
    intro x hx; unfold locate; rw [hx]; simp [findName]
  have l2 : ∀ x : QFunction.QFunc, x.inputs = [f1, f2] → locate f2.name x = some (true, 1, f2) := by
    intro x hx; unfold locate; rw [hx]; simp [findName, Ne.symm n12]
  have l3 : ∀ x : QFunction.QFunc, x.inputs = [f1, f2] → x.outputs = [f3] → locate f3.name x = some (false, 0, f3) := by
    intro x hx hy; unfold locate; rw [hx, hy]; simp [findName, Ne.symm n13, Ne.symm n23]
  obtain ⟨s1, _, e1, e⟩ := runOn_bind_ok e
  obtain ⟨-, a1, h1⟩ := setField_inv e1 (l1 _ hin)
  obtain ⟨p1, p2, p3, p4, p5, p6, -⟩ := fill_rest rs (OpI.create q).freeze true 0 f1.name (.obj r1) b1 v1
  rw [← h1] at p1 p2 p3 p4 p5 p6
  clear h1
  have pQ : s1.Q = argQ rs (.obj r1) b1 := by rw [p4]; rfl
  have pR : s1.hasR = true := by rw [p5]; rfl
  have pE : s1.ne = (rs r1).numElem := by rw [p6]; rfl
  have pi : s1.qf.inputs = [f1, f2] := by rw [p1]; exact hin
  have po : s1.qf.outputs = [f3] := by rw [p1]; exact hout
  obtain ⟨s2, _, e2, e⟩ := runOn_bind_ok e
  obtain ⟨-, a2, h2⟩ := setField_inv e2 (l2 _ pi)
  obtain ⟨q1, q2, q3, q4, q5, q6, -⟩ := fill_rest rs s1.freeze true 1 f2.name (.obj r2) b2 v2
  rw [← h2] at q1 q2 q3 q4 q5 q6
  clear h2
  have qQ : s2.Q = argQ rs (.obj r1) b1 := by
    rw [q4, show s1.freeze.Q = s1.Q from rfl, pQ, if_neg (by omega)]
  have qR : s2.hasR = true := by rw [q5, show s1.freeze.hasR = s1.hasR from rfl, pR]; rfl
  have qE : s2.ne = (rs r1).numElem := by
    rw [q6, show s1.freeze.hasR = s1.hasR from rfl, pR, if_neg (by simp)]; exact pE
  have qi : s2.qf.inputs = [f1, f2] := by rw [q1]; exact pi
  have qo : s2.qf.outputs = [f3] := by rw [q1]; exact po
  obtain ⟨s3, _, e3, e⟩ := runOn_bind_ok e
  obtain ⟨-, a3, h3⟩ := setField_inv e3 (l3 _ qi qo)
  obtain ⟨r1', r2', r3', r4', r5', r6', -⟩ := fill_rest rs s2.freeze false 0 f3.name (.obj r3) b3 v3
  rw [← h3] at r1' r2' r3' r4' r5' r6'
  clear h3
  have rQ : s3.Q = argQ rs (.obj r1) b1 := by
    rw [r4', show s2.freeze.Q = s2.Q from rfl, qQ, if_neg (by omega)]
  have rR : s3.hasR = true := by rw [r5', show s2.freeze.hasR = s2.hasR from rfl, qR]; rfl
  have rE : s3.ne = (rs r1).numElem := by
    rw [r6', show s2.freeze.hasR = s2.hasR from rfl, qR, if_neg (by simp)]; exact qE
  have ri : s3.qf.inputs = [f1, f2] := by rw [r1']; exact qi
  have ro : s3.qf.outputs = [f3] := by rw [r1']; exact qo
  obtain ⟨_, e⟩ := runOn_ok e
  have hs : s.ne = s3.ne ∧ s.Q = s3.Q ∧ s.qf.inputs = s3.qf.inputs ∧ s.qf.outputs = s3.qf.outputs ∧ s.inF = s3.inF ∧
      s.outF = s3.outF := by
    rcases (checkReady_ok e).2 with rfl | rfl
    · exact ⟨rfl, rfl, rfl, rfl, rfl, rfl⟩
    · exact ⟨rfl, rfl, rfl, rfl, rfl, rfl⟩
  obtain ⟨t1, t2, t3, t4, t5, t6⟩ := hs
  refine ⟨⟨a1.suits, a2.suits, a3.suits⟩, ⟨?_, ?_⟩, ⟨?_, ?_⟩, ?_, ?_, ?_, ?_, ?_, ?_, ?_⟩
  · rw [a2.elems r2 rfl pR, pE]
  · rw [a3.elems r3 rfl qR, qE]
  · rcases a2.points with h | h
    · rw [pQ] at h; omega
    · rw [h, pQ]
  · rcases a3.points with h | h
    · rw [qQ] at h; omega
    · rw [h, qQ]
  · show s.ne.toNat = _
    rw [t1, rE]
  · show s.Q = _
    rw [t2, rQ]
  · show s.qf.inputs.length = 2
    rw [t3, ri]; rfl
  · show s.qf.outputs.length = 1
    rw [t4, ro]; rfl
  · show (match s.inF 0, s.qf.inputs[0]? with
      | .set v, some g => (⟨v.vec, v.rid, v.basis, emode g.mode, g.size.toNat⟩ : OField α)
      | _, _ => ⟨.none, Option.none, Option.none, .none, 0⟩) = _
    have : s3.inF 0 = .set ⟨f1.name, v1, some r1, b1.opt⟩ := by
      have h3 := r2' true 0
      have h2 := q2 true 0
      have h1 := p2 true 0
      rw [if_neg (by simp)] at h3
      rw [if_neg (by simp)] at h2
      rw [if_pos (by simp)] at h1
      exact h3.trans (h2.trans h1)
    rw [t5, t3, ri, this]; rfl
  · show (match s.inF 1, s.qf.inputs[1]? with
      | .set v, some g => (⟨v.vec, v.rid, v.basis, emode g.mode, g.size.toNat⟩ : OField α)
      | _, _ => ⟨.none, Option.none, Option.none, .none, 0⟩) = _
    have : s3.inF 1 = .set ⟨f2.name, v2, some r2, b2.opt⟩ := by
      have h3 := r2' true 1
      have h2 := q2 true 1
      rw [if_neg (by simp)] at h3
      rw [if_pos (by simp)] at h2
      exact h3.trans h2
    rw [t5, t3, ri, this]; rfl
  · show (match s.outF 0, s.qf.outputs[0]? with
      | .set v, some g => (⟨v.vec, v.rid, v.basis, emode g.mode, g.size.toNat⟩ : OField α)
      | _, _ => ⟨.none, Option.none, Option.none, .none, 0⟩) = _
    have : s3.outF 0 = .set ⟨f3.name, v3, some r3, b3.opt⟩ := by
      have h3 := r2' false 0
      rw [if_pos (by simp)] at h3
      exact h3
    rw [t6, t4, ro, this]; rfl

theorem restrictOper_ok [CommRing α] {rs : Nat → Rstr} {nc rf ρ rc μ : Nat} {b : Bas α} {s : OpI α}
    (e : restrictOper rs nc rf ρ rc μ b = .ok s) (hQ : 0 < (rs rf).elemSize) (F : (Nat → Nat → α) → Nat → Nat → α) :
    Agree rs nc rf ρ rc b ∧ IsTransfer (s.oper rs false F) rs rf ⟨.active, some rf, none, .none, nc⟩
      ⟨.vec μ, some ρ, none, .none, nc⟩ ⟨.active, some rc, some b, .interp, nc⟩ F := by
  unfold restrictOper at e
  rw [restrictQ_run, Res.bind_ok] at e
  obtain ⟨⟨u1, u2, u3⟩, ⟨h1, h2⟩, ⟨h3, h4⟩, h5, h6, h7, h8, h9, h10, h11⟩ :=
    three_fields (q := restrictQ nc) (f1 := ⟨"input".toList, nc, .none⟩) (f2 := ⟨"scale".toList, nc, .none⟩)
      (f3 := ⟨"output".toList, nc, .interp⟩) rfl rfl (by simp) e hQ F
  have c1 := u1.direct rfl rf rfl
  have c2 := u2.direct rfl ρ rfl
  have c3 := u3.comps rc b rfl rfl
  have c4 := u3.values (by simp) (by simp) b rfl
  simp only at c1 c2 c4
  exact ⟨⟨by omega, by omega, c3, by exact_mod_cast c4, h1, h2, h3, h4⟩, ⟨h5, h6, h7, h8, h9, h10, h11, rfl, rfl, rfl⟩⟩

theorem prolongOper_ok [CommRing α] {rs : Nat → Rstr} {nc rf ρ rc μ : Nat} {b : Bas α} {s : OpI α}
    (e : prolongOper rs nc rf ρ rc μ b = .ok s) (hQ : 0 < b.Q) (F : (Nat → Nat → α) → Nat → Nat → α) :
    Agree rs nc rf ρ rc b ∧ IsTransfer (s.oper rs false F) rs rf ⟨.active, some rc, some b, .interp, nc⟩
      ⟨.vec μ, some ρ, none, .none, nc⟩ ⟨.active, some rf, none, .none, nc⟩ F := by
  unfold prolongOper at e
  rw [prolongQ_run, Res.bind_ok] at e
  obtain ⟨⟨u1, u2, u3⟩, ⟨h1, h2⟩, ⟨h3, h4⟩, h5, h6, h7, h8, h9, h10, h11⟩ :=
    three_fields (q := prolongQ nc) (f1 := ⟨"input".toList, nc, .interp⟩) (f2 := ⟨"scale".toList, nc, .none⟩)
      (f3 := ⟨"output".toList, nc, .none⟩) rfl rfl (by simp) e hQ F
  have c1 := u3.direct rfl rf rfl
  have c2 := u2.direct rfl ρ rfl
  have c3 := u1.comps rc b rfl rfl
  have c4 := u1.values (by simp) (by simp) b rfl
  simp only at c1 c2 c4
  have h3' : (rs ρ).elemSize = b.Q := h3
  have h4' : (rs rf).elemSize = b.Q := h4
  exact ⟨⟨by omega, by omega, c3, by exact_mod_cast c4, by omega, by omega, by omega, by omega⟩,
    ⟨by rw [h5, h2], by rw [h6]; exact h4'.symm, h7, h8, h9, h10, h11, rfl, rfl, rfl⟩⟩

end

end Operator
end Verif
