import Verif.Operator.AtPointsDiagLemmas

/-!
# Diagonals of operators at points: one element (helper lemmas)
-/

set_option linter.unusedSectionVars false

namespace Verif
namespace Operator

open Finset Polynomial
open Restriction (RData Made Rstr Rep laneEnd PointsOK ptsIn ptAt ptsBefore)
open Basis (Bas EMode PBas Env Fresh Shape Exact Used pev along coord pointPos)

variable {K : Type} [Field K] [LinearOrder K]

/-! ## What outputs leave alone -/

/-- Successful runs do not change the data of the inputs. -/
def Fr {β : Type} (m : M (PSt K) β) : Prop :=
  ∀ s s' a, m s = .ok s' a → s'.d.q = s.d.q ∧ s'.d.eb = s.d.eb ∧ s'.d.xe = s.d.xe

theorem Fr.bind {β γ : Type} {m : M (PSt K) β} {f : β → M (PSt K) γ} (h : Fr m) (hf : ∀ a, Fr (f a)) : Fr (m >>= f) := by
  intro s s' a e
  rw [M.bind_apply] at e
  cases h1 : m s with
  | ok s1 b =>
    rw [h1, Out.bind_ok] at e
    obtain ⟨a1, a2, a3⟩ := h s s1 b h1
    obtain ⟨b1, b2, b3⟩ := hf b s1 s' a e
    exact ⟨b1.trans a1, b2.trans a2, b3.trans a3⟩
  | err s1 c => rw [h1] at e; cases e
  | ub => rw [h1] at e; cases e

theorem Fr.pure {β : Type} (b : β) : Fr (pure b : M (PSt K) β) := by
  intro s s' a e
  rw [M.pure_apply] at e
  cases e
  exact ⟨rfl, rfl, rfl⟩

theorem Fr.loop {n : Nat} {body : Nat → M (PSt K) Unit} (h : ∀ i, Fr (body i)) : Fr (M.loop n body) := by
  induction n with
  | zero => exact Fr.pure ()
  | succ n ih =>
    have : M.loop (n + 1) body = M.loop n body >>= fun _ => body n := by
      funext s; rw [M.loop_succ, M.bind_apply]
    rw [this]
    exact Fr.bind ih (fun _ => h n)

theorem Fr.getP : Fr (getP : M (PSt K) (PSt K)) := by
  intro s s' a e
  cases e
  exact ⟨rfl, rfl, rfl⟩

theorem Fr.pptr {β : Type} (p : Option β) : Fr (pptr p : M (PSt K) β) := by
  cases p with
  | some b => exact Fr.pure b
  | none => intro s s' a e; cases e

theorem Fr.lift {β : Type} (r : Res β) : Fr (M.lift r : M (PSt K) β) := by
  intro s s' a e
  cases r with
  | ok b => rw [M.lift_ok] at e; cases e; exact ⟨rfl, rfl, rfl⟩
  | err c => rw [M.lift_err] at e; cases e
  | ub => cases e

theorem Fr.onP {β : Type} (m : M (St K) β) : Fr (onP m) := by
  intro s s' a e
  unfold Operator.onP at e
  cases h : m s.base with
  | ok b x => rw [h] at e; cases e; exact ⟨rfl, rfl, rfl⟩
  | err b x => rw [h] at e; cases e
  | ub => rw [h] at e; cases e

theorem Fr.onBas {β : Type} (id : Nat) (m : M (PBas K) β) : Fr (onBas id m) := by
  intro s s' a e
  unfold Operator.onBas at e
  cases h : m (s.d.bas id) with
  | ok b x => rw [h] at e; cases e; exact ⟨rfl, rfl, rfl⟩
  | err b x => rw [h] at e; cases e
  | ub => rw [h] at e; cases e

theorem Fr.putW (k : Nat) (v : Buf K) : Fr (putW k v) := by
  intro s s' a e
  cases e
  exact ⟨rfl, rfl, rfl⟩

theorem Fr.fail {β : Type} (c : Err) : Fr (M.fail c : M (PSt K) β) := by
  intro s s' a e; cases e

theorem fr_direct (P : POper K) (np : Nat) (y : Nat → Nat → K) (o : Nat) : Fr (directEl P np y o) := by
  unfold directEl
  refine Fr.getP.bind (fun s => ?_)
  split
  · exact (Fr.lift _).bind (fun _ => Fr.putW _ _)
  · exact Fr.pure _

theorem fr_output {P : POper K} (hI : P.op.isId = false) (en : Env K) (outv : VPtr) (e np : Nat) (y : Nat → Nat → K) (o : Nat) :
    Fr (outputEl P en outv e np y o) := by
  unfold outputEl
  refine Fr.bind ?_ (fun _ => ?_)
  · unfold outBasisEl
    split
    · exact Fr.pure _
    · split
      · refine Fr.getP.bind (fun s => (Fr.pptr _).bind (fun k => ?_))
        rw [if_neg (by rw [hI]; simp)]
        exact (Fr.onBas _ _).bind (fun _ => Fr.putW _ _)
      · exact Fr.fail _
  · unfold outScatterEl
    refine Fr.getP.bind (fun s => ?_)
    split
    · exact Fr.pure _
    · exact (Fr.pptr _).bind (fun k => (Fr.pptr _).bind (fun r => Fr.onP _))

theorem wp_fr {β : Type} {m : M (PSt K) β} {s : PSt K} {R : Prop} {Q : PSt K → β → Prop} {E : PSt K → Err → Prop}
    (h : M.wp R m s Q E) (hf : Fr m) :
    M.wp R m s (fun s' a => Q s' a ∧ s'.d.q = s.d.q ∧ s'.d.eb = s.d.eb ∧ s'.d.xe = s.d.xe) E := by
  cases e : m s with
  | ok b a => exact M.wp_of_eq_ok e ⟨M.wp_ok h e, hf s b a e⟩
  | err b a => exact M.wp_of_eq_err e (M.wp_err h e)
  | ub => exact M.wp_of_eq_ub e (M.wp_ub h e)

/-! ## Passive inputs -/

/-- Data of element `e` after the passive inputs `< a`; the active inputs other than `i` are zero. -/
structure PQ (P : POper K) (S : PMean K) (b0 : Nat → PBas K) (L : Nat → Nat → K) (e : Nat) (xe : Buf K) (d : Dyn K) (a : Nat)
    (i : Option Nat) : Prop where
  dinv : DInv P S b0 d
  xe : d.xe = xe
  pas : ∀ j < a, (P.op.inp j).vec ≠ .active → ∀ x < S.np e * (P.op.inp j).size, (d.q j).val x = S.inVal P L .null e j x
  act : ∀ j < P.op.nin, (P.op.inp j).vec = .active → some j ≠ i → ∀ x, (qBuf P d j).val x = 0

theorem AtOK.act_notWeight {P : POper K} {S : PMean K} {b0 : Nat → PBas K} (h : AtOK P S b0) {i : Nat} (hi : i < P.op.nin)
    (ha : (P.op.inp i).vec = .active) : (P.op.inp i).mode ≠ .weight := by
  intro hm
  have := (h.weight i hi hm).1
  rw [ha] at this; cases this

/-- Storing the quadrature data of an input other than active ones without basis. -/
theorem PQ.store {P : POper K} {S : PMean K} {b0 : Nat → PBas K} {L : Nat → Nat → K} {e : Nat} {xe : Buf K} {d : Dyn K} {i : Nat}
    (h : PQ P S b0 L e xe d i none) (hp : (P.op.inp i).vec ≠ .active) {v : Buf K} {bs : Nat → PBas K}
    (hd : DInv P S b0 { d with bas := bs, q := Function.update d.q i v })
    (hv : ∀ x < S.np e * (P.op.inp i).size, v.val x = S.inVal P L .null e i x) :
    PQ P S b0 L e xe { d with bas := bs, q := Function.update d.q i v } (i + 1) none := by
  refine ⟨hd, h.xe, ?_, ?_⟩
  · intro j hj ha x hx
    show (Function.update d.q i v j).val x = _
    by_cases hji : j = i
    · subst hji; rw [Function.update_self]; exact hv x hx
    · rw [Function.update_of_ne hji]; exact h.pas j (by omega) ha x hx
  · intro j hj ha hne x
    have hji : j ≠ i := fun hh => hp (hh ▸ ha)
    have : qBuf P { d with bas := bs, q := Function.update d.q i v } j = qBuf P d j := by
      unfold qBuf
      show (if _ then d.eb j else Function.update d.q i v j) = _
      rw [Function.update_of_ne hji]
    rw [this]
    exact h.act j hj ha hne x

theorem passEl_ok [IsStrictOrderedRing K] {P : POper K} {S : PMean K} {b0 : Nat → PBas K} (h : AtOK P S b0) {L : Nat → Nat → K} {s : PSt K}
    (hp : APre P S L s.base) {e : Nat} (he : e < P.op.ne) {xe : Buf K} {d : Dyn K} {i : Nat} (hi : i < P.op.nin)
    {vs : Nat → LVec K} (hd : PQ P S b0 L e xe d i none) {en : Env K} (hen : Exact en) (hX : CoordsAt P S L e xe) :
    ∃ d', passEl P en e (S.np e) i (s.put d vs (ptsBefore S.offX e)) = .ok (s.put d' vs (ptsBefore S.offX e)) () ∧
      PQ P S b0 L e xe d' (i + 1) none := by
  unfold passEl
  by_cases ha : (P.op.inp i).vec = .active
  · refine ⟨d, by rw [if_pos ha]; rfl, hd.dinv, hd.xe, fun j hj hja => ?_, hd.act⟩
    exact hd.pas j (by
      have : j ≠ i := fun hh => hja (hh ▸ ha)
      omega) hja
  rw [if_neg ha]
  have hfl : first P.op i < P.op.nin := by have := first_le P.op i; omega
  have hptr : (P.op.inp i).mode ≠ .weight → cont L ((P.op.inp i).vec.ptr .null) = cont L ((P.op.inp i).vec.ptr .null) := fun _ => rfl
  unfold evalEl
  rcases mode_cases (P.op.inp i).mode with hm | hm | hm
  · have hnn : (P.op.inp i).mode ≠ .none := by rw [hm]; simp
    rw [if_neg hnn, if_neg (by rw [hm]; simp [isBasisMode])]
    refine ⟨d, rfl, hd.dinv, hd.xe, fun j hj hja x hx => ?_, hd.act⟩
    by_cases hji : j = i
    · subst hji
      rw [hd.dinv.wt j hi hm x (by
        rw [(h.weight j hi hm).2.2.1, Nat.mul_one] at hx
        exact lt_of_lt_of_le hx (np_le he))]
      unfold PMean.inVal
      simp only [hm]
    · exact hd.pas j (by omega) hja x hx
  · have hw : (P.op.inp i).mode ≠ .weight := by rw [hm]; simp
    obtain ⟨k1, k2⟩ := (h.inp i hi hw).none hm
    obtain ⟨hrk, hrid⟩ := (h.inp i hi hw).ok
    have hcnt : cntR P.op S e (P.op.inp i).r = S.np e * (P.op.inp i).size := by unfold cntR; rw [if_pos k1, k2]
    rw [if_pos hm, if_neg ha]
    have hl : ptsBefore S.offX e * (P.op.inp i).size + (d.q i).len ≤ (s.base.impl.eIn (first P.op i)).len := by
      rw [hp.len _ hfl, eSizeOf_same (first_same P.op i), hd.dinv.q i hi]
      have := pos_le hrk he
      unfold posR lenR at this
      rw [if_pos k1, if_pos k1, k2] at this
      have h2 : eSizeOf P.op (P.op.inp i) = (P.op.rstrs (P.op.inp i).r).eSize := by unfold eSizeOf; rw [hrid]
      rw [h2]; exact this
    have hsl : slice (s.base.impl.eIn (first P.op i)) (ptsBefore S.offX e * (P.op.inp i).size) (d.q i).len =
        .ok ⟨(d.q i).len, fun x => (s.base.impl.eIn (first P.op i)).val (ptsBefore S.offX e * (P.op.inp i).size + x)⟩ := by
      unfold slice; rw [if_pos hl]
    refine ⟨{ d with bas := d.bas, q := Function.update d.q i ⟨(d.q i).len, fun x => (s.base.impl.eIn (first P.op i)).val (ptsBefore S.offX e * (P.op.inp i).size + x)⟩ },
      ?_, hd.store ha ?_ ?_⟩
    · unfold passiveEl
      simp only [M.bind_apply, getP, Out.bind_ok, PSt.put, hp.full i hi hw, pptr, M.pure_apply, hsl, M.lift_ok, putQ, modD]
    · refine { hd.dinv with q := ?_, wt := ?_ }
      · intro j hj
        show (Function.update d.q i _ j).len = _
        by_cases hji : j = i
        · subst hji; rw [Function.update_self]; exact hd.dinv.q j hj
        · rw [Function.update_of_ne hji]; exact hd.dinv.q j hj
      · intro j hj hwj x hx
        show (Function.update d.q i _ j).val x = _
        have : j ≠ i := fun hh => hw (hh ▸ hwj)
        rw [Function.update_of_ne this]; exact hd.dinv.wt j hj hwj x hx
    · intro x hx
      rw [inValAt_eq h hi]
      unfold inE
      simp only [hm]
      have := hp.gath i hi hw ha e he x (by rw [hcnt]; exact hx)
      unfold posR at this
      rw [if_pos k1, k2] at this
      exact this
  · have hw := weight_not_basis hm
    have hnn : (P.op.inp i).mode ≠ .none := by intro hh; rw [hh] at hm; simp [isBasisMode] at hm
    rw [if_neg hnn, if_pos hm, if_neg ha]
    obtain ⟨hrk, hrid⟩ := (h.inp i hi hw).ok
    obtain ⟨f1, f2, f3, f4, f5, f6, f7, _⟩ := (h.inp i hi hw).basis hm
    obtain ⟨k1, k2, k3, k4, k5⟩ := f2.facts
    have hpos : e * elemSizeOf P.op (P.op.inp i) * (b0 (P.inB i)).bas.nc = posR P.op S e (P.op.inp i).r := by
      unfold posR elemSizeOf
      rw [if_neg k1, hrid, f5]
      simp only
      rw [k2.es, Nat.mul_assoc]
    have hl : posR P.op S e (P.op.inp i).r + lenR P.op S (mxOf P.op S) (P.op.inp i).r ≤ (s.base.impl.eIn (first P.op i)).len := by
      rw [hp.len _ hfl, eSizeOf_same (first_same P.op i)]
      have h2 : eSizeOf P.op (P.op.inp i) = (P.op.rstrs (P.op.inp i).r).eSize := by unfold eSizeOf; rw [hrid]
      rw [h2]; exact pos_le hrk he
    have hsl : slice (s.base.impl.eIn (first P.op i)) (posR P.op S e (P.op.inp i).r) (lenR P.op S (mxOf P.op S) (P.op.inp i).r) =
        .ok ⟨lenR P.op S (mxOf P.op S) (P.op.inp i).r, fun x => (s.base.impl.eIn (first P.op i)).val (posR P.op S e (P.op.inp i).r + x)⟩ := by
      unfold slice; rw [if_pos hl]
    obtain ⟨bs, v, e1, h1, h2⟩ := basisEl_core h (L := L) (s := s) (vs := vs) he hi hd.dinv (ptsBefore S.offX e) hen hm (by rw [hd.xe]; exact hX)
      (u := ⟨lenR P.op S (mxOf P.op S) (P.op.inp i).r, fun x => (s.base.impl.eIn (first P.op i)).val (posR P.op S e (P.op.inp i).r + x)⟩) rfl
      (g := gvR P.op S e (P.op.inp i).r (cont L ((P.op.inp i).vec.ptr .null)))
      (fun x hx => hp.gath i hi hw ha e he x hx)
    refine ⟨{ d with bas := bs, q := Function.update d.q i v }, ?_, hd.store ha h1 (fun x hx => by rw [h2 x hx, inValAt_eq h hi])⟩
    unfold passiveBasisEl
    simp only [M.bind_apply, getP, Out.bind_ok]
    have h3 : (s.put d vs (ptsBefore S.offX e)).base.impl.it.full i = some (first P.op i) := hp.full i hi hw
    have h4 : (s.put d vs (ptsBefore S.offX e)).base.impl.it.ev i = some _ := hp.ev i hi hm
    have h5 : (s.put d vs (ptsBefore S.offX e)).base.impl.eIn = s.base.impl.eIn := rfl
    simp only [h3, h4, h5, f3, pptr, M.pure_apply, Out.bind_ok, hpos, hsl, M.lift_ok]
    exact e1

/-! ## Clearing -/

theorem clearQ_ok {P : POper K} {S : PMean K} {b0 : Nat → PBas K} (h : AtOK P S b0) {s : PSt K} {d : Dyn K} (hd : DInv P S b0 d)
    (vs : Nat → LVec K) (off : Nat) {i : Nat} (hi : i < P.op.nin) (ha : (P.op.inp i).vec = .active) :
    ∃ d', clearQ P i (s.put d vs off) = .ok (s.put d' vs off) () ∧ DInv P S b0 d' ∧ d'.xe = d.xe ∧ d'.bas = d.bas ∧
      (∀ x, (qBuf P d' i).val x = 0) ∧ (∀ j, j ≠ i → d'.q j = d.q j) ∧ ∀ j, j ≠ i → qBuf P d' j = qBuf P d j := by
  have hw := h.act_notWeight hi ha
  unfold clearQ putQBuf
  by_cases hm : (P.op.inp i).mode = .none
  · refine ⟨{ d with eb := Function.update d.eb i ⟨(qBuf P d i).len, fun _ => 0⟩ }, ?_, ?_, rfl, rfl, ?_, fun _ _ => rfl, ?_⟩
    · simp only [M.bind_apply, getP, Out.bind_ok, PSt.put, if_pos (show _ ∧ _ from ⟨hm, ha⟩), putE, modD]
    · refine { hd with eb := ?_ }
      intro j hj hwj
      show (Function.update d.eb i _ j).len = _
      by_cases hji : j = i
      · subst hji
        rw [Function.update_self]
        show (qBuf P d j).len = _
        unfold qBuf
        rw [if_pos ⟨hm, ha⟩]
        exact hd.eb j hj hwj
      · rw [Function.update_of_ne hji]; exact hd.eb j hj hwj
    · intro x
      unfold qBuf
      rw [if_pos ⟨hm, ha⟩]
      simp only [Function.update_self]
    · intro j hj
      unfold qBuf
      show (if _ then Function.update d.eb i _ j else d.q j) = _
      rw [Function.update_of_ne hj]
  · refine ⟨{ d with q := Function.update d.q i ⟨(qBuf P d i).len, fun _ => 0⟩ }, ?_, ?_, rfl, rfl, ?_, ?_, ?_⟩
    · simp only [M.bind_apply, getP, Out.bind_ok, PSt.put, if_neg (show ¬ (_ ∧ _) from fun hh => hm hh.1), putQ, modD]
    · refine { hd with q := ?_, wt := ?_ }
      · intro j hj
        show (Function.update d.q i _ j).len = _
        by_cases hji : j = i
        · subst hji
          rw [Function.update_self]
          show (qBuf P d j).len = _
          unfold qBuf
          rw [if_neg (fun hh => hm hh.1)]
          exact hd.q j hj
        · rw [Function.update_of_ne hji]; exact hd.q j hj
      · intro j hj hwj x hx
        show (Function.update d.q i _ j).val x = _
        have : j ≠ i := fun hh => hw (hh ▸ hwj)
        rw [Function.update_of_ne this]; exact hd.wt j hj hwj x hx
    · intro x
      unfold qBuf
      rw [if_neg (fun hh => hm hh.1)]
      simp only [Function.update_self]
    · intro j hj
      exact Function.update_of_ne hj _ _
    · intro j hj
      unfold qBuf
      show (if _ then d.eb j else Function.update d.q i _ j) = _
      rw [Function.update_of_ne hj]

/-! ## Unit vectors -/

/-- The shared E-vector of an active input is not the quadrature data of another one. -/
theorem AtOK.first_ne {P : POper K} {S : PMean K} {b0 : Nat → PBas K} (h : AtOK P S b0) {i j : Nat} (hi : i < P.op.nin)
    (ha : (P.op.inp i).vec = .active) (hji : j ≠ i) (hm : (P.op.inp j).mode = .none) : first P.op i ≠ j := by
  intro hh
  have hle := first_le P.op i
  have hlt : j < i := by omega
  have hs := first_same P.op i
  rw [hh] at hs
  obtain ⟨k1, _⟩ := (h.inp j (by omega) (by rw [hm]; simp)).none hm
  rcases mode_cases (P.op.inp i).mode with h1 | h1 | h1
  · exact h.act_notWeight hi ha h1
  · exact (h.shareIn j i hlt hi hs).2 h1 ha
  · obtain ⟨_, h2, _⟩ := (h.inp i hi (weight_not_basis h1)).basis h1
    rw [← r_same hs] at h2
    exact h2.facts.1 k1

theorem unitEl_ok {P : POper K} {S : PMean K} {b0 : Nat → PBas K} (h : AtOK P S b0) {L : Nat → Nat → K} {s : PSt K}
    (hp : APre P S L s.base) {e : Nat} {xe : Buf K} {d : Dyn K} {i : Nat} (hi : i < P.op.nin)
    (ha : (P.op.inp i).vec = .active) {vs : Nat → LVec K} (off : Nat) (hd : PQ P S b0 L e xe d P.op.nin (some i)) {n : Nat}
    (hn : n < lenR P.op S (mxOf P.op S) (P.op.inp i).r)
    (hprev : 0 < n → ∀ x, (d.eb (first P.op i)).val x = if x = n - 1 then 1 else 0) :
    ∃ d', unitEl P i n (s.put d vs off) = .ok (s.put d' vs off) () ∧ PQ P S b0 L e xe d' P.op.nin (some i) ∧
      ∀ x, (d'.eb (first P.op i)).val x = if x = n then 1 else 0 := by
  have hw := h.act_notWeight hi ha
  have hfl : first P.op i < P.op.nin := by have := first_le P.op i; omega
  have hw1 : (P.op.inp (first P.op i)).mode ≠ .weight := by
    intro hh
    have := (h.weight _ hfl hh).1
    rw [(same_iff.1 (first_same P.op i)).1, ha] at this; cases this
  have hl : (d.eb (first P.op i)).len = lenR P.op S (mxOf P.op S) (P.op.inp i).r := by
    rw [hd.dinv.eb _ hfl hw1, r_same (first_same P.op i)]
  set b0' : Buf K := if n = 0 then ⟨(d.eb (first P.op i)).len, fun _ => 0⟩ else d.eb (first P.op i) with hb0
  have hb0l : b0'.len = lenR P.op S (mxOf P.op S) (P.op.inp i).r := by
    rw [hb0]; split
    · exact hl
    · exact hl
  have hrun : ∃ b : Buf K, (M.lift (b0'.wr n 1) >>= fun b => M.lift (if 0 < n then b.wr (n - 1) 0 else .ok b) >>= fun b => putE (first P.op i) b :
        M (PSt K) Unit) (s.put d vs off) = .ok (s.put { d with eb := Function.update d.eb (first P.op i) b } vs off) () ∧
      b.len = lenR P.op S (mxOf P.op S) (P.op.inp i).r ∧ ∀ x, b.val x = if x = n then 1 else 0 := by
    by_cases h0 : 0 < n
    · refine ⟨⟨b0'.len, fun x => if x = n - 1 then 0 else if x = n then 1 else b0'.val x⟩, ?_, hb0l, ?_⟩
      · rw [Buf.wr_lt (by rw [hb0l]; exact hn)]
        simp only [M.bind_apply, M.lift_ok, Out.bind_ok, if_pos h0]
        rw [Buf.wr_lt (by show n - 1 < b0'.len; rw [hb0l]; omega)]
        rfl
      · intro x
        have hv : b0' = d.eb (first P.op i) := by rw [hb0, if_neg (by omega)]
        show (if x = n - 1 then 0 else if x = n then 1 else b0'.val x) = _
        rw [hv, hprev h0]
        by_cases h1 : x = n - 1
        · rw [if_pos h1, if_neg (by omega)]
        · rw [if_neg h1, if_neg h1]
    · refine ⟨⟨b0'.len, fun x => if x = n then 1 else b0'.val x⟩, ?_, hb0l, ?_⟩
      · rw [Buf.wr_lt (by rw [hb0l]; exact hn)]
        simp only [M.bind_apply, M.lift_ok, Out.bind_ok, if_neg h0]
        rfl
      · intro x
        have hv : b0'.val x = 0 := by rw [hb0, if_pos (by omega)]
        show (if x = n then 1 else b0'.val x) = _
        rw [hv]
  obtain ⟨b, e1, e2, e3⟩ := hrun
  refine ⟨{ d with eb := Function.update d.eb (first P.op i) b }, ?_, ⟨?_, hd.xe, hd.pas, ?_⟩, ?_⟩
  · rw [← e1]
    unfold unitEl
    simp only [M.bind_apply, getP, Out.bind_ok]
    have h3 : (s.put d vs off).base.impl.it.full i = some (first P.op i) := hp.full i hi hw
    simp only [h3, pptr, M.pure_apply, Out.bind_ok]
    rfl
  · refine { hd.dinv with eb := ?_ }
    intro j hj hwj
    show (Function.update d.eb (first P.op i) b j).len = _
    by_cases hji : j = first P.op i
    · rw [hji, Function.update_self, e2, r_same (first_same P.op i)]
    · rw [Function.update_of_ne hji]; exact hd.dinv.eb j hj hwj
  · intro j hj haj hne x
    have hji : j ≠ i := fun hh => hne (by rw [hh])
    have : qBuf P { d with eb := Function.update d.eb (first P.op i) b } j = qBuf P d j := by
      unfold qBuf
      by_cases hm : (P.op.inp j).mode = .none ∧ (P.op.inp j).vec = .active
      · rw [if_pos hm, if_pos hm]
        show Function.update d.eb (first P.op i) b j = _
        rw [Function.update_of_ne (h.first_ne hi ha hji hm.1).symm]
      · rw [if_neg hm, if_neg hm]
    rw [this]
    exact hd.act j hj haj hne x
  · intro x
    show (Function.update d.eb (first P.op i) b (first P.op i)).val x = _
    rw [Function.update_self]; exact e3 x

/-- The QFunction gets unit vector `n` of input `i`. -/
theorem unitBasis_ok [IsStrictOrderedRing K] {P : POper K} {S : PMean K} {b0 : Nat → PBas K} (h : AtOK P S b0) {L : Nat → Nat → K} {s : PSt K}
    (hp : APre P S L s.base) {e : Nat} (he : e < P.op.ne) {xe : Buf K} {d : Dyn K} {i : Nat} (hi : i < P.op.nin)
    (ha : (P.op.inp i).vec = .active) {vs : Nat → LVec K} (off : Nat) (hd : PQ P S b0 L e xe d P.op.nin (some i)) {en : Env K}
    (hen : Exact en) (hX : CoordsAt P S L e xe) {n : Nat} (hu : ∀ x, (d.eb (first P.op i)).val x = if x = n then 1 else 0) :
    ∃ d', probeBasis P en (S.np e) i (s.put d vs off) =
        .ok (s.put d' vs off) () ∧ PQ P S b0 L e xe d' P.op.nin (some i) ∧ d'.eb = d.eb ∧
      clipAt P (S.np e) d' = arrZ P S L e (unitZ {i} n) := by
  unfold probeBasis
  have hw := h.act_notWeight hi ha
  have clip : ∀ d' : Dyn K, PQ P S b0 L e xe d' P.op.nin (some i) →
      (∀ x < S.np e * (P.op.inp i).size, (qBuf P d' i).val x = inE P S L e i (fun x => if x = n then 1 else 0) x) →
      clipAt P (S.np e) d' = arrZ P S L e (unitZ {i} n) := by
    intro d' h1 h2
    funext j x
    unfold clipAt arrZ
    split
    swap
    · rfl
    rename_i hj
    by_cases haj : (P.op.inp j).vec = .active
    · rw [if_pos haj]
      by_cases hji : j = i
      · subst hji
        rw [h2 x hj.2]
        congr 1
        funext y
        unfold unitZ
        simp
      · rw [h1.act j hj.1 haj (by simpa using hji) x]
        have : (unitZ {i} n j : Nat → K) = fun _ => 0 := by
          funext y; unfold unitZ; rw [if_neg (by simp [hji])]
        rw [this, inE_zero (h.act_notWeight hj.1 haj)]
    · rw [if_neg haj]
      unfold qBuf
      rw [if_neg (fun hh => haj hh.2)]
      exact h1.pas j hj.1 haj x hj.2
  rcases mode_cases (P.op.inp i).mode with hm | hm | hm
  · exact absurd hm hw
  · rw [if_neg (by rw [hm]; simp [isBasisMode])]
    have hf : first P.op i = i := by
      by_contra hne
      have hle := first_le P.op i
      exact (h.shareIn _ i (by omega) hi (first_same P.op i)).2 hm ha
    refine ⟨d, rfl, hd, rfl, clip d hd (fun x _ => ?_)⟩
    unfold qBuf inE
    rw [if_pos ⟨hm, ha⟩]
    simp only [hm]
    rw [← hu x, hf]
  · have hnn : (P.op.inp i).mode ≠ .none := by intro hh; rw [hh] at hm; simp [isBasisMode] at hm
    rw [if_pos hm]
    have hfl : first P.op i < P.op.nin := by have := first_le P.op i; omega
    have hw1 : (P.op.inp (first P.op i)).mode ≠ .weight := by
      intro hh
      have := (h.weight _ hfl hh).1
      rw [(same_iff.1 (first_same P.op i)).1, ha] at this; cases this
    have hl : (d.eb (first P.op i)).len = lenR P.op S (mxOf P.op S) (P.op.inp i).r := by
      rw [hd.dinv.eb _ hfl hw1, r_same (first_same P.op i)]
    obtain ⟨bs, v, e1, h1, h2⟩ := basisEl_core h (L := L) (s := s) (vs := vs) he hi hd.dinv off hen hm (by rw [hd.xe]; exact hX)
      (u := d.eb (first P.op i)) hl (g := fun x => if x = n then 1 else 0) (fun x _ => hu x)
    have hPQ : PQ P S b0 L e xe { d with bas := bs, q := Function.update d.q i v } P.op.nin (some i) := by
      refine ⟨h1, hd.xe, ?_, ?_⟩
      · intro j hj haj x hx
        have hji : j ≠ i := fun hh => haj (hh ▸ ha)
        show (Function.update d.q i v j).val x = _
        rw [Function.update_of_ne hji]; exact hd.pas j hj haj x hx
      · intro j hj haj hne x
        have hji : j ≠ i := fun hh => hne (by rw [hh])
        have : qBuf P { d with bas := bs, q := Function.update d.q i v } j = qBuf P d j := by
          unfold qBuf
          show (if _ then d.eb j else Function.update d.q i v j) = _
          rw [Function.update_of_ne hji]
        rw [this]
        exact hd.act j hj haj hne x
    refine ⟨_, ?_, hPQ, rfl, clip _ hPQ (fun x hx => ?_)⟩
    · unfold activeBasisEl
      simp only [M.bind_apply, getP, Out.bind_ok]
      have : (s.put d vs off).base.impl.it.full i = some (first P.op i) := hp.full i hi hw
      simp only [this, pptr, M.pure_apply, Out.bind_ok]
      exact e1
    · unfold qBuf
      rw [if_neg (fun hh => hnn hh.1)]
      show (Function.update d.q i v i).val x = _
      rw [Function.update_self]
      exact h2 x hx

end Operator
end Verif
