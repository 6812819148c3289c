import Verif.Gpu.OperTables
import Verif.Gpu.BasisApply
import Mathlib.Tactic.Ring
import Mathlib.Algebra.BigOperators.Ring.Finset

/-!
# Values in the arrays of an operator on a device (helper lemmas)
-/

namespace Verif.Gpu

open Finset
open Verif.Restriction (TMode RData)
open Verif.Basis (EMode)
open Verif.Operator (VPtr FVec LVec isBasisMode OField Oper Meaning Advances cont)

variable {α : Type} [CommRing α]

/-! ## Successful calls -/

/-- The call succeeds in `s` and its result satisfies `Q`. -/
def Tr {σ β : Type} (m : M σ β) (s : σ) (Q : σ → β → Prop) : Prop := ∃ s' a, m s = .ok s' a ∧ Q s' a

section
variable {σ β γ : Type} {s : σ} {Q : σ → β → Prop}

theorem Tr.bind {m : M σ β} {f : β → M σ γ} {Q : σ → γ → Prop} (h : Tr m s (fun s a => Tr (f a) s Q)) :
    Tr (m >>= f) s Q := by
  obtain ⟨s1, a, e, s2, b, e2, h⟩ := h
  exact ⟨s2, b, by rw [M.bind_apply, e]; exact e2, h⟩
theorem Tr.pure {a : β} (h : Q s a) : Tr (pure a : M σ β) s Q := ⟨s, a, rfl, h⟩
theorem Tr.check {c : Prop} [Decidable c] {e : Err} {Q : σ → Unit → Prop} (hc : c) (h : Q s ()) :
    Tr (M.check c e) s Q := ⟨s, (), M.check_true hc e s, h⟩
theorem Tr.mono {m : M σ β} {Q' : σ → β → Prop} (h : Tr m s Q') (hQ : ∀ s a, Q' s a → Q s a) : Tr m s Q := by
  obtain ⟨s', a, e, h⟩ := h
  exact ⟨s', a, e, hQ _ _ h⟩
theorem Tr.loop {n : Nat} {body : Nat → M σ Unit} (I : Nat → σ → Prop) (h0 : I 0 s)
    (hb : ∀ i < n, ∀ s, I i s → Tr (body i) s (fun s _ => I (i + 1) s)) : Tr (M.loop n body) s (fun s _ => I n s) := by
  induction n with
  | zero => exact ⟨s, (), rfl, h0⟩
  | succ n ih =>
    obtain ⟨s1, _, e1, h1⟩ := ih fun i hi => hb i (by omega)
    obtain ⟨s2, _, e2, h2⟩ := hb n (by omega) s1 h1
    exact ⟨s2, (), by rw [M.loop_succ, e1]; exact e2, h2⟩
end

section
variable {s : GSt α} {β : Type}
theorem Tr.get {Q : GSt α → GSt α → Prop} (h : Q s s) : Tr getG s Q := ⟨s, s, rfl, h⟩
theorem Tr.mod {f : GSt α → GSt α} {Q : GSt α → Unit → Prop} (h : Q (f s) ()) : Tr (modG f) s Q := ⟨_, _, rfl, h⟩
theorem Tr.ptr {p : Option β} {b : β} {Q : GSt α → β → Prop} (hp : p = some b) (h : Q s b) : Tr (ptrG p) s Q := by
  subst hp; exact ⟨s, b, rfl, h⟩
theorem Tr.launch {f : Nat → Res (Buf α)} {v : Buf α} {Q : GSt α → Buf α → Prop} (hf : f s.tick = .ok v)
    (h : Q { s with tick := s.tick + 1 } v) : Tr (launchG f) s Q := by
  refine ⟨_, v, ?_, h⟩
  show (M.lift (f s.tick) : M (GSt α) (Buf α)) _ = _
  rw [hf]; rfl
theorem Tr.readV {p : VPtr} {v : Nat} {Q : GSt α → Buf α → Prop} (hp : p = .vec v) (hv : (s.vecs v).valid = true)
    (h : Q s (s.vecs v).buf) : Tr (readVecG p) s Q := by
  subst hp
  refine ⟨s, _, ?_, h⟩
  show (if _ then _ else _) = _
  rw [if_pos hv]
theorem Tr.readE {k : EKey} {Q : GSt α → Buf α → Prop} (hw : (s.ev k).wr = false) (hv : (s.ev k).valid = true)
    (h : Q s (s.ev k).buf) : Tr (readEv k) s Q :=
  .bind (.get (.bind (.check hw (.bind (.check hv (.pure h))))))
theorem Tr.openE {k : EKey} {old : Bool} {Q : GSt α → Buf α → Prop} (hw : (s.ev k).wr = false) (hr : (s.ev k).rd = 0)
    (hv : old = true → (s.ev k).valid = true) (h : Q s (s.ev k).buf) : Tr (openEv k old) s Q :=
  .bind (.get (.bind (.check ⟨hw, hr⟩ (.bind (.check hv (.pure h))))))
theorem Tr.storeE {k : EKey} {v : Buf α} {Q : GSt α → Unit → Prop}
    (h : Q { s with ev := Function.update s.ev k { s.ev k with valid := true, buf := v } } ()) : Tr (storeEv k v) s Q :=
  .bind (.get (.mod h))
end

/-- A launch which runs correctly on every schedule leaves a correct array. -/
theorem Outcome.of_launches {r : Res (Launch α)} {v : Buf α} {y : Res (Buf α)} {Q : Vals α → Prop} (h : Outcome r v y)
    (hl : Launches r Q) : ∃ v', y = .ok v' ∧ v'.len = v.len ∧ ∃ t : Vals α, v'.val = t .v ∧ Q t := by
  obtain ⟨L, hr, hR⟩ := hl
  cases y with
  | ok v' =>
    obtain ⟨L', c, e, h1, h2, rfl⟩ := h
    rw [hr] at e
    cases e
    exact ⟨_, rfl, rfl, c.mem.val, rfl, hR.result c h1 h2⟩
  | err e => exact absurd (hr.symm.trans h) (by simp)
  | ub => exact absurd ⟨L, hr, hR.mono fun _ _ => trivial⟩ h.2

/-! ## Fields -/

/-- What is known of an input that is not a weight. -/
theorem GOK.inF {dv : Device} {op : GOper α} {S : Meaning α} (h : GOK dv op S) {i : Nat} (hi : i < op.nin)
    (hw : (op.inp i).mode ≠ .weight) : (op.inp i).vec ≠ .none ∧ HasRstrG op S (op.inp i) ∧
      ((op.inp i).mode = .none → (S.dat (op.inp i).host).es = op.Q ∧ (op.inp i).size = (S.dat (op.inp i).host).nc) ∧
      ((op.inp i).mode ≠ .none → isBasisMode (op.inp i).mode = true ∧
        ∃ b, FitsG op S (op.inp i) b ∧ MulByG dv b (op.inp i).mode (S.mIn i)) := by
  have := h.inp i hi
  cases hm : (op.inp i).mode <;> simp only [GInOK, hm] at this
  case weight => exact absurd hm hw
  case none => exact ⟨this.1, this.2.1, fun _ => this.2.2, fun h => absurd rfl h⟩
  all_goals exact ⟨this.1, this.2.1, fun h => absurd h (by simp), fun _ => ⟨rfl, this.2.2⟩⟩

/-- What is known of an output. -/
theorem GOK.outF {dv : Device} {op : GOper α} {S : Meaning α} (h : GOK dv op S) {o : Nat} (ho : o < op.nout) :
    HasRstrG op S (op.out o) ∧ Scatters op S (op.out o) ∧
      ((op.out o).mode = .none → (S.dat (op.out o).host).es = op.Q ∧ (op.out o).size = (S.dat (op.out o).host).nc) ∧
      ((op.out o).mode ≠ .none → isBasisMode (op.out o).mode = true ∧
        ∃ b, FitsG op S (op.out o) b ∧ MulByTG dv b (op.out o).mode (S.mOut o) ∧ AddByTG dv b (op.out o).mode (S.mOut o)) := by
  have := h.out o ho
  cases hm : (op.out o).mode <;> simp only [GOutOK, hm] at this
  case none => exact ⟨this.1, this.2.1, fun _ => this.2.2, fun h => absurd rfl h⟩
  all_goals exact ⟨this.1, this.2.1, fun h => absurd h (by simp), fun _ => ⟨rfl, this.2.2⟩⟩

theorem dat_some (S : Meaning α) {a : GField α} {r : Nat} (h : a.rid = some r) : S.dat a.host = S.D r := by
  unfold Meaning.dat GField.host
  simp [h]

theorem dat_same (S : Meaning α) {a b : GField α} (h : a.same b = true) : S.dat a.host = S.dat b.host := by
  unfold Meaning.dat GField.host
  simp [(gsame_iff.1 h).2]

theorem HasRstrG.eSize {op : GOper α} {S : Meaning α} {a : GField α} (h : HasRstrG op S a) :
    op.eSize a = op.ne * (S.dat a.host).es * (S.dat a.host).nc := by
  obtain ⟨r, hr, h1, h2, -⟩ := h
  unfold GOper.eSize
  rw [hr, dat_some S hr, ← h2]
  exact h1.1

/-! ## Inputs of the QFunction -/

/-- The array of input `i` holds the values the QFunction is meant to see. -/
def InVals (op : GOper α) (S : Meaning α) (L : Nat → Nat → α) (inv : VPtr) (i : Nat) (a : Nat → α) : Prop :=
  ∀ cc < (op.inp i).size, ∀ e < op.ne, ∀ q < op.Q,
    a (cc * (op.ne * op.Q) + (e * op.Q + q)) = S.inVal op.host L inv e i (cc * op.Q + q)

variable {op : GOper α} {S : Meaning α} {L : Nat → Nat → α} {inv : VPtr}

theorem divQ {Q cc q : Nat} (hq : q < Q) : (cc * Q + q) / Q = cc ∧ (cc * Q + q) % Q = q :=
  ⟨by rw [mul_comm, Nat.mul_add_div (by omega), Nat.div_eq_of_lt hq]; omega,
    by rw [mul_comm, Nat.mul_add_mod, Nat.mod_eq_of_lt hq]⟩

theorem inVals_none {i : Nat} {a : Nat → α} (hm : (op.inp i).mode = .none) (hne : (S.dat (op.inp i).host).ne = op.ne)
    (hes : (S.dat (op.inp i).host).es = op.Q) (hsz : (op.inp i).size = (S.dat (op.inp i).host).nc)
    (h : IsGatherG (S.dat (op.inp i).host) (cont L ((op.inp i).vec.ptr inv)) a) : InVals op S L inv i a := by
  intro cc hc e he q hq
  have := h e (by omega) cc (by omega) q (by omega)
  unfold Meaning.inVal
  have hm' : (op.host.inp i).mode = .none := hm
  simp only [hm']
  rw [show op.host.Q = op.Q from rfl, (divQ hq).1, (divQ hq).2]
  rw [show cc * (op.ne * op.Q) + (e * op.Q + q) = gPos (S.dat (op.inp i).host).ne (S.dat (op.inp i).host).es e cc q by
    unfold gPos; rw [hne, hes]; ring]
  exact this

theorem inVals_basis {i : Nat} {b : DBas α} {u a : Nat → α} (hm : isBasisMode (op.inp i).mode = true)
    (hne : (S.dat (op.inp i).host).ne = op.ne) (hb : FitsG op S (op.inp i) b)
    (hu : IsGatherG (S.dat (op.inp i).host) (cont L ((op.inp i).vec.ptr inv)) u)
    (ha : ∀ c < b.bas.qComp (op.inp i).mode, ∀ k < b.bas.nc, ∀ q < b.bas.Q, ∀ e < op.ne,
        a (quadPosG b.bas.nc b.bas.Q op.ne c k q e) = rowTimesG b.bas op.ne (S.mIn i) u c k q e) : InVals op S L inv i a := by
  obtain ⟨-, hP, hnc, hQ, hsz⟩ := hb
  intro cc hc e he q hq
  have hnc0 : 0 < (S.dat (op.inp i).host).nc := by
    rcases Nat.eq_zero_or_pos (S.dat (op.inp i).host).nc with h0 | h0
    · rw [hsz, h0] at hc; omega
    · exact h0
  set D := S.dat (op.inp i).host with hD
  have hk : cc % D.nc < D.nc := Nat.mod_lt _ hnc0
  have hcd : cc / D.nc < b.bas.qComp (op.inp i).mode := by
    rw [Nat.div_lt_iff_lt_mul hnc0, mul_comm]; omega
  have h1 := ha (cc / D.nc) hcd (cc % D.nc) (by omega) q (by omega) e he
  have hpos : cc * (op.ne * op.Q) + (e * op.Q + q) = quadPosG b.bas.nc b.bas.Q op.ne (cc / D.nc) (cc % D.nc) q e := by
    have := Nat.div_add_mod cc D.nc
    unfold quadPosG
    rw [hnc, hQ]
    conv_lhs => rw [← this]
    ring
  rw [hpos, h1]
  have hv : S.inVal op.host L inv e i (cc * op.Q + q) = ∑ n ∈ range D.es,
      (S.mIn i).val ((cc / D.nc * op.Q + q) * D.es + n) * D.row (cont L ((op.inp i).vec.ptr inv)) e (cc % D.nc) n := by
    unfold Meaning.inVal
    have e1 : op.host.Q = op.Q := rfl
    have e2 : (op.host.inp i).mode = (op.inp i).mode := rfl
    have e3 : S.dat (op.host.inp i) = D := rfl
    have e4 : (op.host.inp i).vec = (op.inp i).vec := rfl
    simp only [e1, e2, e3, e4, (divQ hq).1, (divQ hq).2]
    cases hmm : (op.inp i).mode <;> simp_all [isBasisMode]
  rw [hv]
  unfold rowTimesG
  rw [hP, hQ]
  refine sum_congr rfl fun n hn => ?_
  rw [← hu e (by omega) (cc % D.nc) hk n (mem_range.1 hn), hne]

theorem inVals_weight {i : Nat} {a : Nat → α} (hm : (op.inp i).mode = .weight) (hs : (op.inp i).size = 1)
    (ha : ∀ e < op.ne, ∀ q < op.Q, a (e * op.Q + q) = S.w i q) : InVals op S L inv i a := by
  intro cc hc e he q hq
  obtain rfl : cc = 0 := by omega
  have hm' : (op.host.inp i).mode = .weight := hm
  unfold Meaning.inVal
  simp only [hm', Nat.zero_mul, Nat.zero_add]
  exact ha e he q hq

/-! ## Outputs of the QFunction -/

/-- The array of output `o` holds the values the QFunction is meant to compute. -/
def OutVals (op : GOper α) (S : Meaning α) (L : Nat → Nat → α) (inv : VPtr) (o : Nat) (a : Nat → α) : Prop :=
  ∀ cc < (op.out o).size, ∀ e < op.ne, ∀ q < op.Q,
    a (cc * (op.ne * op.Q) + (e * op.Q + q)) = S.outArr op.host L inv e o (cc * op.Q + q)

theorem readQuads_eq {s : GSt α} {e q : Nat} (he : e < op.ne) (hq : q < op.Q)
    (h : ∀ i < op.nin, InVals op S L inv i (s.arr (s.qIn i)).val) :
    readQuads op s (e * op.Q + q) = fun i c => S.inArr op.host L inv e i (c * op.Q + q) := by
  funext i c
  unfold readQuads Meaning.inArr
  have e1 : op.host.nin = op.nin := rfl
  have e2 : op.host.Q = op.Q := rfl
  have e3 : (op.host.inp i).size = (op.inp i).size := rfl
  rw [e1, e2, e3]
  have hiff : c * op.Q + q < op.Q * (op.inp i).size ↔ c < (op.inp i).size := by
    constructor
    · intro h1
      by_contra hc
      have : op.Q * (op.inp i).size ≤ op.Q * c := Nat.mul_le_mul_left _ (by omega)
      have : op.Q * c = c * op.Q := mul_comm _ _
      omega
    · intro h1
      have : op.Q * (c + 1) ≤ op.Q * (op.inp i).size := Nat.mul_le_mul_left _ h1
      have : op.Q * (c + 1) = c * op.Q + op.Q := by ring
      omega
  by_cases hc : i < op.nin ∧ c < (op.inp i).size
  · rw [if_pos hc, if_pos ⟨hc.1, hiff.2 hc.2⟩]
    exact h i hc.1 c hc.2 e he q hq
  · rw [if_neg hc, if_neg fun hh => hc ⟨hh.1, hiff.1 hh.2⟩]

theorem outVals_write {s : GSt α} {o : Nat} {b : Buf α}
    (h : ∀ i < op.nin, InVals op S L inv i (s.arr (s.qIn i)).val) :
    OutVals op S L inv o (writeQuads (op.ne * op.Q) (op.out o).size (fun c p => op.g (readQuads op s p) o c) b).val := by
  intro cc hc e he q hq
  have hp : e * op.Q + q < op.ne * op.Q := by
    have : (e + 1) * op.Q ≤ op.ne * op.Q := Nat.mul_le_mul_right _ he
    have : (e + 1) * op.Q = e * op.Q + op.Q := by ring
    omega
  have hx : cc * (op.ne * op.Q) + (e * op.Q + q) < op.ne * op.Q * (op.out o).size := by
    have : op.ne * op.Q * (cc + 1) ≤ op.ne * op.Q * (op.out o).size := Nat.mul_le_mul_left _ hc
    have : op.ne * op.Q * (cc + 1) = cc * (op.ne * op.Q) + op.ne * op.Q := by ring
    omega
  show (if _ then _ else _) = _
  rw [if_pos hx, (divQ hp).1, (divQ hp).2, readQuads_eq he hq h]
  unfold Meaning.outArr
  have e1 : op.host.isId = false := rfl
  rw [e1]
  show _ = op.g (fun i c => S.inArr op.host L inv e i (c * op.Q + (cc * op.Q + q) % op.Q)) o ((cc * op.Q + q) / op.Q)
  rw [(divQ hq).1, (divQ hq).2]

theorem elemOut_none {o : Nat} {a : Nat → α} (hm : (op.out o).mode = .none) (hne : (S.dat (op.out o).host).ne = op.ne)
    (hes : (S.dat (op.out o).host).es = op.Q) (hsz : (op.out o).size = (S.dat (op.out o).host).nc)
    (ha : OutVals op S L inv o a) {e k n : Nat} (he : e < op.ne) (hk : k < (S.dat (op.out o).host).nc)
    (hn : n < (S.dat (op.out o).host).es) :
    a (gPos (S.dat (op.out o).host).ne (S.dat (op.out o).host).es e k n) = S.elemOut op.host L inv o e k n := by
  rw [hne, hes, show gPos op.ne op.Q e k n = k * (op.ne * op.Q) + (e * op.Q + n) by unfold gPos; ring,
    ha k (by omega) e he n (by omega)]
  unfold Meaning.elemOut
  have hm' : (op.host.out o).mode = .none := hm
  simp only [hm']
  rfl

theorem elemOut_basis {o : Nat} {b : DBas α} {a : Nat → α} (hm : isBasisMode (op.out o).mode = true)
    (hb : FitsG op S (op.out o) b) (ha : OutVals op S L inv o a) {e k n : Nat} (he : e < op.ne)
    (hk : k < (S.dat (op.out o).host).nc) :
    colTimesG b.bas (b.bas.qComp (op.out o).mode) op.ne (S.mOut o) a k n e = S.elemOut op.host L inv o e k n := by
  obtain ⟨hbas, hP, hnc, hQ, hsz⟩ := hb
  set D := S.dat (op.out o).host with hD
  have hv : S.elemOut op.host L inv o e k n = ∑ c ∈ range (b.bas.qComp (op.out o).mode), ∑ q ∈ range op.Q,
      (S.mOut o).val ((c * op.Q + q) * D.es + n) * S.outArr op.host L inv e o ((c * D.nc + k) * op.Q + q) := by
    unfold Meaning.elemOut
    have e1 : op.host.Q = op.Q := rfl
    have e2 : (op.host.out o).mode = (op.out o).mode := rfl
    have e3 : S.dat (op.host.out o) = D := rfl
    have e4 : (op.host.out o).qc = b.bas.qComp (op.out o).mode := by
      show (match (op.out o).basis.map DBas.bas with | some b => b.qComp (op.out o).mode | none => 1) = _
      rw [hbas]; rfl
    simp only [e1, e2, e3, e4]
    cases hmm : (op.out o).mode <;> simp_all [isBasisMode]
  rw [hv]
  unfold colTimesG
  rw [hP, hQ, hnc]
  refine sum_congr rfl fun c hc => sum_congr rfl fun q hq => ?_
  rw [show quadPosG D.nc op.Q op.ne c k q e = (c * D.nc + k) * (op.ne * op.Q) + (e * op.Q + q) by unfold quadPosG; ring]
  rw [ha (c * D.nc + k) ?_ e he q (mem_range.1 hq)]
  have hc' := mem_range.1 hc
  rw [hsz]
  have : D.nc * (c + 1) ≤ D.nc * b.bas.qComp (op.out o).mode := Nat.mul_le_mul_left _ hc'
  have : D.nc * (c + 1) = c * D.nc + D.nc := by ring
  omega

/-! ## What a scatter adds -/

theorem scatterG_congr {D : RData α} {w w' : Nat → α}
    (h : ∀ e < D.ne, ∀ k < D.nc, ∀ n < D.es, w (gPos D.ne D.es e k n) = w' (gPos D.ne D.es e k n)) (t : Nat) :
    scatterG D w t = scatterG D w' t := by
  unfold scatterG
  refine sum_congr rfl fun e he => sum_congr rfl fun k hk => sum_congr rfl fun n hn => sum_congr rfl fun m _ => ?_
  rw [h e (mem_range.1 he) k (mem_range.1 hk) n (mem_range.1 hn)]

theorem scatterG_first {o : Nat} {w : Nat → α} (hne : (S.dat (op.out o).host).ne = op.ne)
    (h : ∀ e < op.ne, ∀ k < (S.dat (op.out o).host).nc, ∀ n < (S.dat (op.out o).host).es,
      w (gPos op.ne (S.dat (op.out o).host).es e k n) = S.elemOut op.host L inv o e k n) (t : Nat) :
    scatterG (S.dat (op.out o).host) w t = S.adds op.host L inv o t := by
  unfold scatterG Meaning.adds
  refine sum_congr rfl fun e he => sum_congr rfl fun k hk => sum_congr rfl fun n hn => sum_congr rfl fun m _ => ?_
  rw [hne, h e (hne ▸ mem_range.1 he) k (mem_range.1 hk) n (mem_range.1 hn)]
  rfl

theorem scatterG_next {o : Nat} {w w' : Nat → α} (hne : (S.dat (op.out o).host).ne = op.ne)
    (h : ∀ e < op.ne, ∀ k < (S.dat (op.out o).host).nc, ∀ n < (S.dat (op.out o).host).es,
      w' (gPos op.ne (S.dat (op.out o).host).es e k n) =
        w (gPos op.ne (S.dat (op.out o).host).es e k n) + S.elemOut op.host L inv o e k n) (t : Nat) :
    scatterG (S.dat (op.out o).host) w' t =
      scatterG (S.dat (op.out o).host) w t + S.adds op.host L inv o t := by
  have hadds : S.adds op.host L inv o t = ∑ e ∈ range (S.dat (op.out o).host).ne, ∑ k ∈ range (S.dat (op.out o).host).nc,
      ∑ n ∈ range (S.dat (op.out o).host).es, ∑ m ∈ range (S.dat (op.out o).host).es,
        if (S.dat (op.out o).host).lidx e m k = t then
          (S.dat (op.out o).host).coef e n m * S.elemOut op.host L inv o e k n else 0 := rfl
  rw [hadds]
  unfold scatterG
  rw [← sum_add_distrib]
  refine sum_congr rfl fun e he => ?_
  rw [← sum_add_distrib]
  refine sum_congr rfl fun k hk => ?_
  rw [← sum_add_distrib]
  refine sum_congr rfl fun n hn => ?_
  rw [← sum_add_distrib]
  refine sum_congr rfl fun m _ => ?_
  rw [hne, h e (hne ▸ mem_range.1 he) k (mem_range.1 hk) n (mem_range.1 hn)]
  split
  · rw [mul_add]
  · simp

end Verif.Gpu
