import Verif.Gpu.OperBase

/-!
# Inputs of an operator on a device (helper lemmas)
-/

namespace Verif.Gpu

open Finset
open Verif.Restriction (TMode RData)
open Verif.Basis (EMode)
open Verif.Operator (VPtr FVec LVec isBasisMode OField Oper Meaning Advances cont)

variable {α : Type} [CommRing α]

/-! ## Tables -/

/-- The E-vector of input `f`. -/
def keyI (op : GOper α) (f : Nat) : Option EKey :=
  match ownIn op f with
  | some k => some (.inp k)
  | none => if (op.inp f).vec = .active then some .work else none

/-- The input at position `i`. -/
def ordI (op : GOper α) (i : Nat) : Nat := (tabsG op).inOrd.getD i 0

/-- The output at position `i`. -/
def ordO (op : GOper α) (i : Nat) : Nat := (tabsG op).outOrd.getD i 0

/-- Inputs of the same group. -/
def RI (op : GOper α) (i j : Nat) : Prop := (op.inp i).vec ≠ .none ∧ (op.inp i).same (op.inp j) = true

/-- Outputs of the same group. -/
def RO (op : GOper α) (i j : Nat) : Prop := (op.out i).same (op.out j) = true

section
variable {op : GOper α}

theorem RI.symm {a b : Nat} (h : RI op a b) : RI op b a :=
  ⟨(gsame_iff.1 h.2).1 ▸ h.1, gsame_symm h.2⟩
theorem RI.trans {a b c : Nat} (h : RI op a b) (h' : RI op b c) : RI op a c := ⟨h.1, gsame_trans h.2 h'.2⟩

theorem eSize_same {a b : GField α} (h : a.same b = true) : op.eSize b = op.eSize a := by
  unfold GOper.eSize; rw [(gsame_iff.1 h).2]

theorem rel_in : Rel (fun i => decide ((op.inp i).vec = .none)) (fun i j => (op.inp i).same (op.inp j)) = RI op := by
  funext i j
  unfold Rel RI
  simp
theorem rel_out : Rel (fun _ => false) (fun i j => (op.out i).same (op.out j)) = RO op := by
  funext i j
  unfold Rel RO
  simp

theorem orderI_ok : OrderOK op.nin (RI op) (tabsG op).inOrd := by
  have := orderG_ok (n := op.nin) (m0 := 0) (alone := fun i => decide ((op.inp i).vec = .none))
    (same := fun i j => (op.inp i).same (op.inp j)) (len := fun i => op.eSize (op.inp i))
    (by rw [rel_in]; exact fun a b h => h.symm) (by rw [rel_in]; exact fun a b c h h' => h.trans h')
    (by rw [rel_in]; exact fun a b h => eSize_same h.2)
  rwa [rel_in] at this

theorem orderO_ok : OrderOK op.nout (RO op) (tabsG op).outOrd := by
  have := orderG_ok (n := op.nout) (m0 := (orderIn op).2) (alone := fun _ => false)
    (same := fun i j => (op.out i).same (op.out j)) (len := fun i => op.eSize (op.out i))
    (by rw [rel_out]; exact fun a b h => gsame_symm h) (by rw [rel_out]; exact fun a b c h h' => gsame_trans h h')
    (by rw [rel_out]; exact fun a b h => eSize_same h)
  rwa [rel_out] at this

theorem orderG_ge {n : Nat} {alone : Nat → Bool} {same : Nat → Nat → Bool} {len : Nat → Nat} {m0 : Nat} :
    m0 ≤ (orderG n alone same len m0).2 := by
  unfold orderG
  refine iter_inv (fun _ (t : List Nat × Nat) => m0 ≤ t.2) le_rfl fun i _ t ht => ?_
  unfold orderStep
  split
  · exact ht
  split
  · exact ht
  · exact le_trans ht (le_max_left _ _)

theorem maxIn {f : Nat} (hf : f < op.nin) (hv : (op.inp f).vec ≠ .none) : op.eSize (op.inp f) ≤ (tabsG op).maxLen := by
  have := orderG_len (n := op.nin) (m0 := 0) (alone := fun i => decide ((op.inp i).vec = .none))
    (same := fun i j => (op.inp i).same (op.inp j)) (len := fun i => op.eSize (op.inp i))
    (by rw [rel_in]; exact fun a b h => h.symm) (by rw [rel_in]; exact fun a b c h h' => h.trans h')
    (by rw [rel_in]; exact fun a b h => eSize_same h.2) hf (by simpa using hv)
  exact le_trans this orderG_ge

theorem maxOut {f : Nat} (hf : f < op.nout) : op.eSize (op.out f) ≤ (tabsG op).maxLen :=
  orderG_len (n := op.nout) (m0 := (orderIn op).2) (alone := fun _ => false)
    (same := fun i j => (op.out i).same (op.out j)) (len := fun i => op.eSize (op.out i))
    (by rw [rel_out]; exact fun a b h => gsame_symm h) (by rw [rel_out]; exact fun a b c h h' => gsame_trans h h')
    (by rw [rel_out]; exact fun a b h => eSize_same h) hf rfl
end

variable {dv : Device} {op : GOper α} {S : Meaning α} {D : Dev α} {inv : VPtr}

theorem keyIn_eq (h : GOK dv op S) {s : GSt α} (ht : s.tabs = tabsG op) {f : Nat} (hf : f < op.nin) :
    s.keyIn op f = keyI op f := by
  unfold GSt.keyIn keyI
  rw [ht, show (tabsG op).inOwn f = (shareInsG op).1 f from rfl, (shareInsG_spec h f hf).2]
  cases ownIn op f <;> rfl

theorem inSkip_iff (h : GOK dv op S) {s : GSt α} (ht : s.tabs = tabsG op) {f : Nat} (hf : f < op.nin) :
    s.tabs.inSkip f = true ↔ lead op.inp f < f := by
  rw [ht]; exact (shareInsG_spec h f hf).1

theorem keyI_same {i j : Nat} (h : (op.inp i).same (op.inp j) = true) : keyI op i = keyI op j := by
  unfold keyI ownIn
  rw [lead_congr h, (gsame_iff.1 h).1]

theorem keyI_ne_out (f k : Nat) : keyI op f ≠ some (.out k) := by
  unfold keyI
  split
  · simp
  · split <;> simp

/-- A key of an input is that of its leader or the work vector of active inputs. -/
theorem keyI_cases {f : Nat} {k : EKey} (hk : keyI op f = some k) :
    (k = .inp (lead op.inp f) ∧ op.makesIn (op.inp (lead op.inp f)) = true ∧ (op.inp f).vec ≠ .active) ∨
      (k = .work ∧ (op.inp f).vec = .active) := by
  unfold keyI ownIn at hk
  by_cases hm : op.makesIn (op.inp (lead op.inp f)) = true
  · rw [if_pos hm] at hk
    simp only [Option.some.injEq] at hk
    refine .inl ⟨hk.symm, hm, fun ha => ?_⟩
    unfold GOper.makesIn at hm
    rw [lead_vec, ha] at hm
    simp at hm
  · rw [if_neg hm] at hk
    by_cases ha : (op.inp f).vec = .active
    · rw [if_pos ha] at hk
      cases hk
      exact .inr ⟨rfl, ha⟩
    · rw [if_neg ha] at hk
      cases hk

/-- An input without E-vector is a weight, or it is read where it is. -/
theorem keyI_none (h : GOK dv op S) {f : Nat} (hf : f < op.nin) (hk : keyI op f = none)
    (hw : (op.inp f).mode ≠ .weight) : (op.inp f).mode = .none ∧ op.backend (op.inp f) = true := by
  unfold keyI ownIn at hk
  have hm : op.makesIn (op.inp (lead op.inp f)) = false := by
    by_contra hc
    rw [if_pos (by simpa using hc)] at hk
    cases hk
  rw [hm] at hk
  have ha : (op.inp f).vec ≠ .active := by
    intro ha
    simp [ha] at hk
  have hmf : op.makesIn (op.inp f) = false := by
    rcases Nat.lt_or_ge (lead op.inp f) f with h1 | h1
    · exact h.makes_group h1 hf (lead_same _ _) hm
    · rwa [le_antisymm (lead_le _ _) h1] at hm
  unfold GOper.makesIn at hmf
  simpa [ha, hw] using hmf

/-! ## State between and during applications -/

/-- What stays true. -/
structure Fix (op : GOper α) (S : Meaning α) (s : GSt α) : Prop where
  tabs : s.tabs = tabsG op
  evIn : ∀ i, (s.ev (.inp i)).buf.len = op.eSize (op.inp i)
  evOut : ∀ o, (s.ev (.out o)).buf.len = op.eSize (op.out o)
  qInLen : ∀ i < op.nin, (op.inp i).mode ≠ .weight → (s.qIn i).buf.len = op.ne * op.Q * (op.inp i).size
  qOutLen : ∀ o, (s.qOut o).buf.len = op.ne * op.Q * (op.out o).size
  wts : ∀ i < op.nin, (op.inp i).mode = .weight → (s.qIn i).valid = true ∧ (s.qIn i).bor = none ∧
    (s.qIn i).buf.len = op.ne * op.Q ∧ ∀ e < op.ne, ∀ q < op.Q, (s.qIn i).buf.val (e * op.Q + q) = S.w i q
  cached : ∀ f < op.nin, op.makesIn (op.inp f) = true → lead op.inp f = f → ∀ v, (op.inp f).vec = .vec v →
    s.states f ≤ (s.vecs v).state ∧ (s.states f = (s.vecs v).state → (s.vecs v).state ≠ 0 →
      (s.ev (.inp f)).valid = true ∧ IsGatherG (S.dat (op.inp f).host) (s.vecs v).buf.val (s.ev (.inp f)).buf.val)

/-- The array of input `j` is right. -/
def GoodIn (op : GOper α) (S : Meaning α) (inv : VPtr) (s : GSt α) (j : Nat) : Prop :=
  ((s.qIn j).bor.isSome = true ∨ (s.qIn j).valid = true) ∧ op.ne * op.Q * (op.inp j).size ≤ (s.arr (s.qIn j)).len ∧
    InVals op S s.L inv j (s.arr (s.qIn j)).val

/-- Where an input without basis is read. -/
def srcI (op : GOper α) (inv : VPtr) (j : Nat) : QSrc :=
  match keyI op j with
  | some k => .ev k
  | none => .vec ((vecOf ((op.inp j).vec.ptr inv)).getD 0)

/-- The E-vector of input `f` holds the gathered vector. -/
def HasGather (op : GOper α) (S : Meaning α) (inv : VPtr) (s : GSt α) (f : Nat) : Prop :=
  ∀ k, keyI op f = some k → (s.ev k).valid = true ∧
    IsGatherG (S.dat (op.inp f).host) (cont s.L ((op.inp f).vec.ptr inv)) (s.ev k).buf.val

/-- Contribution of input `j` to the number of readers of `k`. -/
def reads (op : GOper α) (k : EKey) (j : Nat) : Nat := if (op.inp j).mode = .none ∧ keyI op j = some k then 1 else 0

/-- State after the inputs at positions `< i`. -/
structure InSt (op : GOper α) (S : Meaning α) (inv : VPtr) (V : Nat → LVec α) (i : Nat) (s : GSt α) : Prop where
  fix : Fix op S s
  vecs : s.vecs = V
  dn : s.done = true
  work : (tabsG op).maxLen ≤ (s.ev .work).buf.len
  wr : ∀ k, (s.ev k).wr = false
  rd : ∀ k, (s.ev k).rd = ∑ j ∈ range i, reads op k (ordI op j)
  qout : ∀ o, (s.qOut o).bor = none
  borS : ∀ j < i, (op.inp (ordI op j)).mode = .none → (s.qIn (ordI op j)).bor = some (srcI op inv (ordI op j))
  borN : ∀ f < op.nin, ((op.inp f).mode ≠ .none ∨ ∀ j < i, ordI op j ≠ f) → (s.qIn f).bor = none
  vals : ∀ j < i, GoodIn op S inv s (ordI op j)

theorem goodIn_congr {s s' : GSt α} {j : Nat} (hq : s'.qIn j = s.qIn j) (hv : s'.vecs = s.vecs)
    (he : ∀ k, (s.qIn j).bor = some (.ev k) → (s'.ev k).buf = (s.ev k).buf) (h : GoodIn op S inv s j) :
    GoodIn op S inv s' j := by
  have ha : s'.arr (s'.qIn j) = s.arr (s.qIn j) := by
    rw [hq]
    unfold GSt.arr
    cases hb : (s.qIn j).bor with
    | none => rfl
    | some x =>
      cases x with
      | ev k => exact he k hb
      | vec v => simp only [hv]
  unfold GoodIn GSt.L
  rw [ha, hq, hv]
  exact h

section
variable {V : Nat → LVec α} {i : Nat}

theorem ordI_lt (hi : i < op.nin) : ordI op i < op.nin := orderI_ok.lt i hi

/-- Nobody reads the E-vector of a leader before the leader is restricted. -/
theorem no_reader (h : GOK dv op S) (hi : i < op.nin) (hl : lead op.inp (ordI op i) = ordI op i) {k : EKey}
    (hk : keyI op (ordI op i) = some k) {j : Nat} (hj : j < i) (hm : (op.inp (ordI op j)).mode = .none) :
    keyI op (ordI op j) ≠ some k := by
  intro hk'
  have hjn : j < op.nin := by omega
  have hvj := (h.inF (ordI_lt hjn) (by rw [hm]; simp)).1
  have hR : RI op (ordI op i) (ordI op j) := by
    rcases keyI_cases hk with ⟨rfl, -, -⟩ | ⟨rfl, ha⟩
    · rcases keyI_cases hk' with ⟨e, -, -⟩ | ⟨e, -⟩
      · rw [hl] at e
        simp only [EKey.inp.injEq] at e
        have hs : (op.inp (ordI op i)).same (op.inp (ordI op j)) = true := e ▸ lead_same op.inp (ordI op j)
        exact RI.symm ⟨hvj, gsame_symm hs⟩
      · cases e
    · rcases keyI_cases hk' with ⟨e, -, -⟩ | ⟨-, ha'⟩
      · cases e
      · refine ⟨by rw [ha]; simp, gsame_iff.2 ⟨by rw [ha, ha'], ?_⟩⟩
        exact h.inWork _ (ordI_lt hjn) _ (ordI_lt hi) ha' hm ha
  obtain ⟨j', hj', e⟩ := orderI_ok.lead_before (fun a b c h h' => RI.trans h h') (fun a b h => RI.symm h)
    (f := ordI op i) (fun j' hj' hc => by
      have := lead_le_of_same hc.2
      omega) hjn hR
  have := orderI_ok.inj j' (by omega) i hi e
  omega

theorem rd_zero (h : GOK dv op S) (hi : i < op.nin) (hl : lead op.inp (ordI op i) = ordI op i) {k : EKey}
    (hk : keyI op (ordI op i) = some k) : ∑ j ∈ range i, reads op k (ordI op j) = 0 := by
  refine sum_eq_zero fun j hj => ?_
  unfold reads
  rw [if_neg]
  rintro ⟨hm, hk'⟩
  exact no_reader h hi hl hk (mem_range.1 hj) hm hk'

/-- The E-vector of a leader is filled. -/
theorem store_in (h : GOK dv op S) (hi : i < op.nin) (hl : lead op.inp (ordI op i) = ordI op i) {k : EKey}
    (hk : keyI op (ordI op i) = some k) {s : GSt α} (hs : InSt op S inv V i s) {w : Buf α}
    (hlen : w.len = (s.ev k).buf.len) {v : Nat} (hv : (op.inp (ordI op i)).vec.ptr inv = .vec v)
    (hg : IsGatherG (S.dat (op.inp (ordI op i)).host) (V v).buf.val w.val) (t : Nat) :
    InSt op S inv V i { s with
      tick := t
      ev := Function.update s.ev k { s.ev k with valid := true, buf := w }
      states := Function.update s.states (ordI op i) (V v).state } := by
  have hne : ∀ k', k' ≠ k → (Function.update s.ev k { s.ev k with valid := true, buf := w }) k' = s.ev k' :=
    fun k' hk' => Function.update_of_ne hk' _ _
  have hlen' : ∀ k', ((Function.update s.ev k { s.ev k with valid := true, buf := w }) k').buf.len = (s.ev k').buf.len := by
    intro k'
    by_cases hk' : k' = k
    · subst hk'; rw [Function.update_self]; exact hlen
    · rw [hne k' hk']
  have hwr : ∀ k', ((Function.update s.ev k { s.ev k with valid := true, buf := w }) k').wr = (s.ev k').wr := by
    intro k'
    by_cases hk' : k' = k
    · subst hk'; rw [Function.update_self]
    · rw [hne k' hk']
  have hrd : ∀ k', ((Function.update s.ev k { s.ev k with valid := true, buf := w }) k').rd = (s.ev k').rd := by
    intro k'
    by_cases hk' : k' = k
    · subst hk'; rw [Function.update_self]
    · rw [hne k' hk']
  refine ⟨⟨hs.fix.tabs, fun i => (hlen' _).trans (hs.fix.evIn i), fun i => (hlen' _).trans (hs.fix.evOut i), hs.fix.qInLen,
    hs.fix.qOutLen, hs.fix.wts, ?_⟩, hs.vecs, hs.dn, (hlen' _).symm ▸ hs.work, fun k' => (hwr k').trans (hs.wr k'),
    fun k' => (hrd k').trans (hs.rd k'), hs.qout, hs.borS, hs.borN, ?_⟩
  · intro g hg1 hm hlg v' hv'
    show Function.update s.states (ordI op i) (V v).state g ≤ (s.vecs v').state ∧ _
    by_cases hgf : g = ordI op i
    · subst hgf
      have hvv : v' = v := by
        rw [hv'] at hv
        simpa [FVec.ptr] using hv
      subst hvv
      rw [Function.update_self, hs.vecs]
      refine ⟨le_rfl, fun _ _ => ?_⟩
      have hkk : k = .inp (ordI op i) := by
        rcases keyI_cases hk with ⟨e, -, -⟩ | ⟨-, ha⟩
        · rw [e, hl]
        · rw [ha] at hv'; cases hv'
      show (Function.update s.ev k _ (.inp (ordI op i))).valid = true ∧
        IsGatherG _ _ (Function.update s.ev k _ (.inp (ordI op i))).buf.val
      rw [hkk, Function.update_self]
      exact ⟨rfl, hg⟩
    · rw [Function.update_of_ne hgf]
      show _ ∧ (Function.update s.states (ordI op i) (V v).state g = _ → _ →
        (Function.update s.ev k _ (.inp g)).valid = true ∧ IsGatherG _ _ (Function.update s.ev k _ (.inp g)).buf.val)
      have hkg : EKey.inp g ≠ k := by
        rintro rfl
        rcases keyI_cases hk with ⟨e, -, -⟩ | ⟨e, -⟩
        · rw [hl] at e
          exact hgf (EKey.inp.inj e)
        · cases e
      rw [Function.update_of_ne hgf, hne _ hkg]
      exact hs.fix.cached g hg1 hm hlg v' hv'
  · intro j hj
    refine goodIn_congr (s := s) rfl rfl (fun k' hb => ?_) (hs.vals j hj)
    have hmj : (op.inp (ordI op j)).mode = .none := by
      by_contra hc
      rw [hs.borN _ (ordI_lt (by omega)) (.inl hc)] at hb
      cases hb
    have hk' : keyI op (ordI op j) = some k' := by
      rw [hs.borS j hj hmj] at hb
      unfold srcI at hb
      split at hb
      · rename_i e
        simp only [Option.some.injEq, QSrc.ev.injEq] at hb
        rw [e, hb]
      · cases hb
    have : k' ≠ k := fun e => no_reader h hi hl hk hj hmj (e ▸ hk')
    show (Function.update s.ev k _ k').buf = _
    rw [hne _ this]

theorem restrict_in (h : GOK dv op S) (hD : D.Real dv) (hi : i < op.nin) {s : GSt α} (hs : InSt op S inv V i s)
    (hr : InReadyG op inv s) (hv0 : ∀ v, (V v).state = 0 → (V v).valid = false)
    (hlast : 0 < i → (op.inp (ordI op (i - 1))).mode ≠ .weight → HasGather op S inv s (ordI op (i - 1)))
    (hw : (op.inp (ordI op i)).mode ≠ .weight) :
    Tr (inputRestrict op D inv (ordI op i)) s fun s' _ => InSt op S inv V i s' ∧ HasGather op S inv s' (ordI op i) := by
  have hf := ordI_lt (op := op) hi
  obtain ⟨hvn, ⟨r, hrid, hgath, hdne, -⟩, -⟩ := h.inF hf hw
  obtain ⟨r', v, hr', hv, hval, hlong⟩ := hr _ hf hw
  rw [hrid] at hr'
  cases hr'
  refine .bind (.get ?_)
  rw [keyIn_eq h hs.fix.tabs hf]
  cases hk : keyI op (ordI op i) with
  | none => exact .pure ⟨hs, fun k hk' => absurd (hk.symm.trans hk') (by simp)⟩
  | some k =>
    show Tr (if s.tabs.inSkip (ordI op i) = true then _ else _) s _
    by_cases hsk : s.tabs.inSkip (ordI op i) = true
    · rw [if_pos hsk]
      refine .pure ⟨hs, ?_⟩
      have hlt := (inSkip_iff h hs.fix.tabs hf).1 hsk
      rcases orderI_ok.back i hi with h1 | ⟨h0, hR, -⟩
      · exact absurd ⟨by rw [lead_vec]; exact hvn, lead_same _ _⟩ (h1 _ hlt)
      · have hR' : RI op (ordI op (i - 1)) (ordI op i) := hR
        have hwl : (op.inp (ordI op (i - 1))).mode ≠ .weight := by
          intro hc
          have := h.inp _ (ordI_lt (op := op) (i := i - 1) (by omega))
          unfold GInOK at this
          rw [hc] at this
          exact hR'.1 this.1
        intro k' hk'
        have := hlast h0 hwl k' ((keyI_same hR'.2).trans hk')
        rwa [dat_same S hR'.2, (gsame_iff.1 hR'.2).1] at this
    · rw [if_neg hsk]
      have hl : lead op.inp (ordI op i) = ordI op i :=
        le_antisymm (lead_le _ _) (not_lt.1 fun hh => hsk ((inSkip_iff h hs.fix.tabs hf).2 hh))
      have hst : s.stateOf ((op.inp (ordI op i)).vec.ptr inv) = (V v).state := by
        rw [hv, ← hs.vecs]; rfl
      have hcont : cont s.L ((op.inp (ordI op i)).vec.ptr inv) = (V v).buf.val := by
        rw [hv]
        show (s.vecs v).buf.val = _
        rw [hs.vecs]
      have hlen : (S.D r).ne * (S.D r).es * (S.D r).nc ≤ (s.ev k).buf.len := by
        have he : op.eSize (op.inp (ordI op i)) = (S.D r).ne * (S.D r).es * (S.D r).nc := by
          unfold GOper.eSize; rw [hrid]; exact hgath.1
        rw [← he]
        rcases keyI_cases hk with ⟨rfl, -, -⟩ | ⟨rfl, -⟩
        · rw [hl, hs.fix.evIn]
        · exact le_trans (maxIn hf hvn) hs.work
      refine .bind ?_
      refine Tr.mono (Q' := fun s1 _ => ∃ t w, w.len = (s.ev k).buf.len ∧
        IsGatherG (S.dat (op.inp (ordI op i)).host) (V v).buf.val w.val ∧
        s1 = { s with tick := t, ev := Function.update s.ev k { s.ev k with valid := true, buf := w } }) ?_ ?_
      · refine .bind (.get ?_)
        by_cases hc : (op.inp (ordI op i)).vec = .active ∨
            s.stateOf ((op.inp (ordI op i)).vec.ptr inv) ≠ s.states (ordI op i)
        · rw [if_pos hc]
          refine .bind (.ptr hrid (.bind (.readV hv hval (.bind (.openE (hs.wr k) ?_ (fun h => absurd h (by simp)) ?_)))))
          · rw [hs.rd, rd_zero h hi hl hk]
          obtain ⟨w, hw1, hw2, t, hw3, hw4⟩ := (hD.rstr s.tick (op.rstrs r) .noTranspose (s.vecs v).buf
            (s.ev k).buf).of_launches (hgath.2 _ _ hlong hlen)
          refine .bind (.launch hw1 (.storeE ⟨s.tick + 1, w, hw2, ?_, rfl⟩))
          rw [dat_some S hrid, hw3, ← hs.vecs]
          exact hw4
        · rw [if_neg hc]
          push Not at hc
          obtain ⟨hna, heq⟩ := hc
          have hvec : (op.inp (ordI op i)).vec = .vec v := by
            cases hvv : (op.inp (ordI op i)).vec with
            | active => exact absurd hvv hna
            | none => exact absurd hvv hvn
            | vec v' =>
              rw [hvv] at hv
              simp only [FVec.ptr, VPtr.vec.injEq] at hv
              rw [hv]
          have hkk : k = .inp (ordI op i) ∧ op.makesIn (op.inp (ordI op i)) = true := by
            rcases keyI_cases hk with ⟨e, hm, -⟩ | ⟨-, ha⟩
            · rw [hl] at hm e; exact ⟨e, hm⟩
            · exact absurd ha hna
          obtain ⟨-, hc2⟩ := hs.fix.cached _ hf hkk.2 hl v hvec
          obtain ⟨hc3, hc4⟩ := hc2 (by rw [← heq, hst, hs.vecs]) (by
            intro h0
            rw [hs.vecs] at h0 hval
            rw [hv0 v h0] at hval
            cases hval)
          refine .pure ⟨s.tick, (s.ev k).buf, rfl, ?_, ?_⟩
          · rw [hkk.1, ← hs.vecs]; exact hc4
          · have : ({ s.ev k with valid := true, buf := (s.ev k).buf } : EVec α) = s.ev k := by
              rw [hkk.1]
              cases hx : s.ev (.inp (ordI op i)) with
              | mk a b c d =>
                rw [hx] at hc3
                simp only at hc3
                rw [hc3]
            rw [this, Function.update_eq_self]
      · rintro s1 _ ⟨t, w, hw1, hw2, rfl⟩
        refine .mod ?_
        rw [hst]
        refine ⟨store_in h hi hl hk hs hw1 hv hw2 t, ?_⟩
        intro k' hk'
        rw [hk] at hk'
        cases hk'
        show (Function.update s.ev k _ k).valid = true ∧ IsGatherG _ (cont s.L _) (Function.update s.ev k _ k).buf.val
        rw [Function.update_self, hcont]
        exact ⟨rfl, hw2⟩

theorem sum_reads_succ (k : EKey) : ∑ j ∈ range (i + 1), reads op k (ordI op j) =
    ∑ j ∈ range i, reads op k (ordI op j) + reads op k (ordI op i) := sum_range_succ _ _

theorem ordI_ne {j : Nat} (hi : i < op.nin) (hj : j < i) : ordI op j ≠ ordI op i := fun e => by
  have := orderI_ok.inj j (by omega) i hi e
  omega

theorem hasGather_congr {s s' : GSt α} {f : Nat} (hv : s'.vecs = s.vecs)
    (he : ∀ k, keyI op f = some k → (s'.ev k).valid = (s.ev k).valid ∧ (s'.ev k).buf = (s.ev k).buf)
    (h : HasGather op S inv s f) : HasGather op S inv s' f := by
  intro k hk
  obtain ⟨e1, e2⟩ := he k hk
  unfold GSt.L
  rw [hv, e1, e2]
  exact h k hk

/-- Weights need nothing. -/
theorem step_weight (h : GOK dv op S) (hi : i < op.nin) {s : GSt α} (hs : InSt op S inv V i s)
    (hw : (op.inp (ordI op i)).mode = .weight) :
    Tr (inputG op D inv (ordI op i)) s fun s' _ => InSt op S inv V (i + 1) s' := by
  have hf := ordI_lt (op := op) hi
  have hin := h.inp _ hf
  unfold GInOK at hin
  rw [hw] at hin
  obtain ⟨hvn, hrn, hsz, -⟩ := hin
  have hk : keyI op (ordI op i) = none := by
    cases hk : keyI op (ordI op i) with
    | none => rfl
    | some k =>
      rcases keyI_cases hk with ⟨-, hm, -⟩ | ⟨-, ha⟩
      · exfalso
        have hlv : (op.inp (lead op.inp (ordI op i))).vec = .none := by rw [lead_vec]; exact hvn
        have hlt : lead op.inp (ordI op i) < op.nin := lt_of_le_of_lt (lead_le _ _) hf
        have hlw : (op.inp (lead op.inp (ordI op i))).mode = .weight := by
          by_contra hc
          exact (h.inF hlt hc).1 hlv
        unfold GOper.makesIn at hm
        rw [hlw] at hm
        simp at hm
      · rw [hvn] at ha; cases ha
  refine .bind (.bind (.get ?_))
  rw [keyIn_eq h hs.fix.tabs hf, hk]
  refine .pure ?_
  unfold inputBasisG
  rw [hw, if_neg (by simp), if_neg (by simp [isBasisMode])]
  refine .pure ⟨hs.fix, hs.vecs, hs.dn, hs.work, hs.wr, fun k => ?_, hs.qout, fun j hj hm => ?_, fun f hf' hh => ?_, fun j hj => ?_⟩
  · rw [sum_reads_succ, hs.rd]
    unfold reads
    rw [if_neg (by simp [hw])]
    rfl
  · rcases Nat.lt_succ_iff_lt_or_eq.1 hj with h1 | rfl
    · exact hs.borS j h1 hm
    · rw [hw] at hm; cases hm
  · refine hs.borN f hf' ?_
    rcases hh with h1 | h1
    · exact .inl h1
    · exact .inr fun j hj => h1 j (by omega)
  · rcases Nat.lt_succ_iff_lt_or_eq.1 hj with h1 | rfl
    · exact hs.vals j h1
    · obtain ⟨w1, w2, w3, w4⟩ := hs.fix.wts _ hf hw
      have ha : s.arr (s.qIn (ordI op j)) = (s.qIn (ordI op j)).buf := by unfold GSt.arr; rw [w2]
      refine ⟨.inr w1, ?_, ?_⟩
      · rw [ha, w3, hsz]; omega
      · rw [ha]; exact inVals_weight hw hsz w4

/-- Inputs without basis. -/
theorem step_none (h : GOK dv op S) (hi : i < op.nin) {s : GSt α} (hs : InSt op S inv V i s)
    (hr : InReadyG op inv s) (hg : HasGather op S inv s (ordI op i)) (hm : (op.inp (ordI op i)).mode = .none) :
    Tr (borrowIn op inv (ordI op i)) s fun s' _ => InSt op S inv V (i + 1) s' ∧ HasGather op S inv s' (ordI op i) := by
  have hf := ordI_lt (op := op) hi
  have hw : (op.inp (ordI op i)).mode ≠ .weight := by rw [hm]; simp
  obtain ⟨hvn, hrst, hno, -⟩ := h.inF hf hw
  obtain ⟨hes, hsz⟩ := hno hm
  have heS := hrst.eSize
  obtain ⟨r, hrid, hgath, hdne, hdir⟩ := hrst
  have hdne' : (S.dat (op.inp (ordI op i)).host).ne = op.ne := by rw [dat_some S hrid, hdne]
  obtain ⟨r', v, hr', hv, hval, hlong⟩ := hr _ hf hw
  rw [hrid] at hr'
  cases hr'
  have hborf : (s.qIn (ordI op i)).bor = none := hs.borN _ hf (.inr fun j hj => ordI_ne hi hj)
  refine .bind (.get ?_)
  rw [keyIn_eq h hs.fix.tabs hf]
  have hsize : op.ne * op.Q * (op.inp (ordI op i)).size = op.eSize (op.inp (ordI op i)) := by rw [heS, hes, hsz]
  cases hk : keyI op (ordI op i) with
  | some k =>
    obtain ⟨hgv, hgb⟩ := hg k hk
    refine .bind (.readE (hs.wr k) hgv (.bind (.mod (.mod ?_))))
    have hbuf : ∀ k', ((Function.update s.ev k { s.ev k with rd := (s.ev k).rd + 1 }) k').buf = (s.ev k').buf := by
      intro k'
      by_cases hk' : k' = k
      · subst hk'; rw [Function.update_self]
      · rw [Function.update_of_ne hk']
    have hvld : ∀ k', ((Function.update s.ev k { s.ev k with rd := (s.ev k).rd + 1 }) k').valid = (s.ev k').valid := by
      intro k'
      by_cases hk' : k' = k
      · subst hk'; rw [Function.update_self]
      · rw [Function.update_of_ne hk']
    have hwrr : ∀ k', ((Function.update s.ev k { s.ev k with rd := (s.ev k).rd + 1 }) k').wr = (s.ev k').wr := by
      intro k'
      by_cases hk' : k' = k
      · subst hk'; rw [Function.update_self]
      · rw [Function.update_of_ne hk']
    have hqne : ∀ g, g ≠ ordI op i → (Function.update s.qIn (ordI op i)
        { s.qIn (ordI op i) with bor := some (.ev k) }) g = s.qIn g := fun g hgne => Function.update_of_ne hgne _ _
    refine ⟨⟨⟨hs.fix.tabs, fun i => by rw [hbuf]; exact hs.fix.evIn i, fun i => by rw [hbuf]; exact hs.fix.evOut i, ?_,
      hs.fix.qOutLen, ?_, ?_⟩, hs.vecs, hs.dn, by rw [hbuf]; exact hs.work, fun k' => by rw [hwrr]; exact hs.wr k', ?_, hs.qout,
      ?_, ?_, ?_⟩, ?_⟩
    · intro g hg1 hg2
      show (Function.update s.qIn (ordI op i) { s.qIn (ordI op i) with bor := some (.ev k) } g).buf.len = _
      by_cases hgf : g = ordI op i
      · subst hgf
        rw [Function.update_self]
        exact hs.fix.qInLen _ hg1 hg2
      · rw [hqne g hgf]; exact hs.fix.qInLen g hg1 hg2
    · intro g hg1 hg2
      have hgf : g ≠ ordI op i := by rintro rfl; exact hw hg2
      show (Function.update s.qIn (ordI op i) _ g).valid = _ ∧ (Function.update s.qIn (ordI op i) _ g).bor = _ ∧
        (Function.update s.qIn (ordI op i) _ g).buf.len = _ ∧
        ∀ e < op.ne, ∀ q < op.Q, (Function.update s.qIn (ordI op i) _ g).buf.val _ = _
      rw [hqne g hgf]; exact hs.fix.wts g hg1 hg2
    · intro g h1 h2 h3 v' h4
      show _ ∧ (_ → _ → (Function.update s.ev k _ (.inp g)).valid = true ∧
        IsGatherG _ _ (Function.update s.ev k _ (.inp g)).buf.val)
      rw [hvld, hbuf]
      exact hs.fix.cached g h1 h2 h3 v' h4
    · intro k'
      rw [sum_reads_succ, ← hs.rd]
      show (Function.update s.ev k _ k').rd = _
      unfold reads
      by_cases hk' : k' = k
      · subst hk'; rw [Function.update_self, if_pos ⟨hm, hk⟩]
      · rw [Function.update_of_ne hk', if_neg]
        · rfl
        · rintro ⟨-, e⟩
          rw [hk] at e
          exact hk' (Option.some.inj e).symm
    · intro j hj hmj
      show (Function.update s.qIn (ordI op i) _ (ordI op j)).bor = _
      rcases Nat.lt_succ_iff_lt_or_eq.1 hj with h1 | rfl
      · rw [hqne _ (ordI_ne hi h1)]; exact hs.borS j h1 hmj
      · rw [Function.update_self]
        unfold srcI
        rw [hk]
    · intro g hg1 hg2
      have hgf : g ≠ ordI op i := by
        rintro rfl
        rcases hg2 with h1 | h1
        · exact h1 hm
        · exact h1 i (by omega) rfl
      show (Function.update s.qIn (ordI op i) _ g).bor = _
      rw [hqne g hgf]
      refine hs.borN g hg1 ?_
      rcases hg2 with h1 | h1
      · exact .inl h1
      · exact .inr fun j hj => h1 j (by omega)
    · intro j hj
      rcases Nat.lt_succ_iff_lt_or_eq.1 hj with h1 | rfl
      · exact goodIn_congr (s := s) (hqne _ (ordI_ne hi h1)) rfl (fun k' _ => hbuf k') (hs.vals j h1)
      · refine ⟨.inl ?_, ?_, ?_⟩
        · show (Function.update s.qIn (ordI op j) _ (ordI op j)).bor.isSome = true
          rw [Function.update_self]; rfl
        · show _ ≤ (GSt.arr _ (Function.update s.qIn (ordI op j) _ (ordI op j))).len
          rw [Function.update_self]
          show _ ≤ ((Function.update s.ev k { s.ev k with rd := (s.ev k).rd + 1 }) k).buf.len
          rw [hbuf, hsize]
          rcases keyI_cases hk with ⟨rfl, -, -⟩ | ⟨rfl, -⟩
          · rw [hs.fix.evIn, ← eSize_same (lead_same op.inp (ordI op j))]
          · exact le_trans (maxIn hf hvn) hs.work
        · show InVals _ _ _ _ _ (GSt.arr _ (Function.update s.qIn (ordI op j) _ (ordI op j))).val
          rw [Function.update_self]
          show InVals _ _ s.L _ _ ((Function.update s.ev k { s.ev k with rd := (s.ev k).rd + 1 }) k).buf.val
          rw [hbuf]
          exact inVals_none hm hdne' hes hsz hgb
    · exact hasGather_congr (s := s) rfl (fun k' _ => ⟨hvld k', hbuf k'⟩) hg
  | none =>
    obtain ⟨-, hbk⟩ := keyI_none h hf hk hw
    have hds : (op.rstrs r).backendStrided = true := by unfold GOper.backend at hbk; rw [hrid] at hbk; exact hbk
    obtain ⟨hd1, hd2⟩ := hdir hds
    refine .bind (.readV hv hval (.bind (.ptr (b := v) (by rw [hv]; rfl) (.mod ?_))))
    have hqne : ∀ g, g ≠ ordI op i → (Function.update s.qIn (ordI op i)
        { s.qIn (ordI op i) with bor := some (.vec v) }) g = s.qIn g := fun g hgne => Function.update_of_ne hgne _ _
    refine ⟨⟨⟨hs.fix.tabs, hs.fix.evIn, hs.fix.evOut, ?_, hs.fix.qOutLen, ?_, hs.fix.cached⟩, hs.vecs, hs.dn, hs.work, hs.wr, ?_,
      hs.qout, ?_, ?_, ?_⟩, fun k' hk' => absurd (hk.symm.trans hk') (by simp)⟩
    · intro g hg1 hg2
      show (Function.update s.qIn (ordI op i) { s.qIn (ordI op i) with bor := some (.vec v) } g).buf.len = _
      by_cases hgf : g = ordI op i
      · subst hgf
        rw [Function.update_self]
        exact hs.fix.qInLen _ hg1 hg2
      · rw [hqne g hgf]; exact hs.fix.qInLen g hg1 hg2
    · intro g hg1 hg2
      have hgf : g ≠ ordI op i := by rintro rfl; exact hw hg2
      show (Function.update s.qIn (ordI op i) _ g).valid = _ ∧ (Function.update s.qIn (ordI op i) _ g).bor = _ ∧
        (Function.update s.qIn (ordI op i) _ g).buf.len = _ ∧
        ∀ e < op.ne, ∀ q < op.Q, (Function.update s.qIn (ordI op i) _ g).buf.val _ = _
      rw [hqne g hgf]; exact hs.fix.wts g hg1 hg2
    · intro k'
      rw [sum_reads_succ, ← hs.rd]
      unfold reads
      rw [if_neg (by rw [hk]; simp)]
      rfl
    · intro j hj hmj
      show (Function.update s.qIn (ordI op i) _ (ordI op j)).bor = _
      rcases Nat.lt_succ_iff_lt_or_eq.1 hj with h1 | rfl
      · rw [hqne _ (ordI_ne hi h1)]; exact hs.borS j h1 hmj
      · rw [Function.update_self]
        unfold srcI
        rw [hk, hv]; rfl
    · intro g hg1 hg2
      have hgf : g ≠ ordI op i := by
        rintro rfl
        rcases hg2 with h1 | h1
        · exact h1 hm
        · exact h1 i (by omega) rfl
      show (Function.update s.qIn (ordI op i) _ g).bor = _
      rw [hqne g hgf]
      refine hs.borN g hg1 ?_
      rcases hg2 with h1 | h1
      · exact .inl h1
      · exact .inr fun j hj => h1 j (by omega)
    · intro j hj
      rcases Nat.lt_succ_iff_lt_or_eq.1 hj with h1 | rfl
      · exact goodIn_congr (s := s) (hqne _ (ordI_ne hi h1)) rfl (fun k' _ => rfl) (hs.vals j h1)
      · refine ⟨.inl ?_, ?_, ?_⟩
        · show (Function.update s.qIn (ordI op j) _ (ordI op j)).bor.isSome = true
          rw [Function.update_self]; rfl
        · show _ ≤ (GSt.arr _ (Function.update s.qIn (ordI op j) _ (ordI op j))).len
          rw [Function.update_self]
          show _ ≤ (s.vecs v).buf.len
          rw [hsize, heS, dat_some S hrid, ← hdne]
          omega
        · show InVals _ _ _ _ _ (GSt.arr _ (Function.update s.qIn (ordI op j) _ (ordI op j))).val
          rw [Function.update_self]
          show InVals _ _ s.L _ _ (s.vecs v).buf.val
          refine inVals_none hm hdne' hes hsz ?_
          rw [hv, dat_some S hrid]
          exact hd2 _

/-- Inputs with basis. -/
theorem step_basis (h : GOK dv op S) (hD : D.Real dv) (hne : 0 < op.ne) (hi : i < op.nin) {s : GSt α}
    (hs : InSt op S inv V i s) (hg : HasGather op S inv s (ordI op i)) (hw : (op.inp (ordI op i)).mode ≠ .weight)
    (hm : (op.inp (ordI op i)).mode ≠ .none) :
    Tr (basisInG op D (ordI op i)) s fun s' _ => InSt op S inv V (i + 1) s' ∧ HasGather op S inv s' (ordI op i) := by
  have hf := ordI_lt (op := op) hi
  obtain ⟨hvn, hrst, -, hyes⟩ := h.inF hf hw
  obtain ⟨hbm, b, hfit, hmul⟩ := hyes hm
  have heS := hrst.eSize
  obtain ⟨r, hrid, hgath, hdne, hdir⟩ := hrst
  have hdne' : (S.dat (op.inp (ordI op i)).host).ne = op.ne := by rw [dat_some S hrid, hdne]
  have hborf : (s.qIn (ordI op i)).bor = none := hs.borN _ hf (.inl hm)
  obtain ⟨k, hk⟩ : ∃ k, keyI op (ordI op i) = some k := by
    cases hk : keyI op (ordI op i) with
    | none => exact absurd (keyI_none h hf hk hw).1 hm
    | some k => exact ⟨k, rfl⟩
  obtain ⟨hgv, hgb⟩ := hg k hk
  refine .bind (.get (.bind (.ptr hfit.1 (.bind (.ptr (b := k) (by rw [keyIn_eq h hs.fix.tabs hf, hk])
    (.bind (.readE (hs.wr k) hgv (.bind ?_))))))))
  have hlen1 : op.ne * b.bas.nc * b.bas.P ≤ (s.ev k).buf.len := by
    have : op.ne * b.bas.nc * b.bas.P = op.eSize (op.inp (ordI op i)) := by
      rw [heS, hfit.2.1, hfit.2.2.1]; ring
    rw [this]
    rcases keyI_cases hk with ⟨rfl, -, -⟩ | ⟨rfl, -⟩
    · rw [hs.fix.evIn, ← eSize_same (lead_same op.inp (ordI op i))]
    · exact le_trans (maxIn hf hvn) hs.work
  have hqlen := hs.fix.qInLen _ hf hw
  have hlen2 : op.ne * b.bas.Q * b.bas.nc * b.bas.qComp (op.inp (ordI op i)).mode ≤ (s.qIn (ordI op i)).buf.len := by
    rw [hqlen, hfit.2.2.2.2, hfit.2.2.1, hfit.2.2.2.1, mul_assoc]
  obtain ⟨junk, hout⟩ := hD.basis s.tick b op.ne .noTranspose (op.inp (ordI op i)).mode (some (s.ev k).buf)
    (s.qIn (ordI op i)).buf
  obtain ⟨w, hw1, hw2, t, hw3, hw4, -, -⟩ := hout.of_launches (hmul junk op.ne _ _ hne hlen1 hlen2)
  refine .launch hw1 (.mod ?_)
  have hqne : ∀ g, g ≠ ordI op i → (Function.update s.qIn (ordI op i)
      { s.qIn (ordI op i) with valid := true, buf := w }) g = s.qIn g := fun g hgne => Function.update_of_ne hgne _ _
  refine ⟨⟨⟨hs.fix.tabs, hs.fix.evIn, hs.fix.evOut, ?_, hs.fix.qOutLen, ?_, hs.fix.cached⟩, hs.vecs, hs.dn, hs.work, hs.wr, ?_,
    hs.qout, ?_, ?_, ?_⟩, hg⟩
  · intro g hg1 hg2
    show (Function.update s.qIn (ordI op i) { s.qIn (ordI op i) with valid := true, buf := w } g).buf.len = _
    by_cases hgf : g = ordI op i
    · subst hgf
      rw [Function.update_self]
      exact hw2.trans (hs.fix.qInLen _ hg1 hg2)
    · rw [hqne g hgf]; exact hs.fix.qInLen g hg1 hg2
  · intro g hg1 hg2
    have hgf : g ≠ ordI op i := by rintro rfl; exact hw hg2
    show (Function.update s.qIn (ordI op i) _ g).valid = _ ∧ (Function.update s.qIn (ordI op i) _ g).bor = _ ∧
      (Function.update s.qIn (ordI op i) _ g).buf.len = _ ∧
      ∀ e < op.ne, ∀ q < op.Q, (Function.update s.qIn (ordI op i) _ g).buf.val _ = _
    rw [hqne g hgf]; exact hs.fix.wts g hg1 hg2
  · intro k'
    rw [sum_reads_succ, ← hs.rd]
    unfold reads
    rw [if_neg (by simp [hm])]
    rfl
  · intro j hj hmj
    show (Function.update s.qIn (ordI op i) _ (ordI op j)).bor = _
    rcases Nat.lt_succ_iff_lt_or_eq.1 hj with h1 | rfl
    · rw [hqne _ (ordI_ne hi h1)]; exact hs.borS j h1 hmj
    · exact absurd hmj hm
  · intro g hg1 hg2
    show (Function.update s.qIn (ordI op i) { s.qIn (ordI op i) with valid := true, buf := w } g).bor = _
    by_cases hgf : g = ordI op i
    · subst hgf
      rw [Function.update_self]
      exact hborf
    · rw [hqne g hgf]
      refine hs.borN g hg1 ?_
      rcases hg2 with h1 | h1
      · exact .inl h1
      · exact .inr fun j hj => h1 j (by omega)
  · intro j hj
    rcases Nat.lt_succ_iff_lt_or_eq.1 hj with h1 | rfl
    · exact goodIn_congr (s := s) (hqne _ (ordI_ne hi h1)) rfl (fun k' _ => rfl) (hs.vals j h1)
    · have harr : ∀ s' : GSt α, GSt.arr s' { s.qIn (ordI op j) with valid := true, buf := w } = w := by
        intro s'
        unfold GSt.arr
        rw [hborf]
      refine ⟨.inr ?_, ?_, ?_⟩
      · show (Function.update s.qIn (ordI op j) _ (ordI op j)).valid = true
        rw [Function.update_self]
      · show _ ≤ (GSt.arr _ (Function.update s.qIn (ordI op j) _ (ordI op j))).len
        rw [Function.update_self, harr, hw2, hqlen]
      · show InVals _ _ s.L _ _ (GSt.arr _ (Function.update s.qIn (ordI op j) _ (ordI op j))).val
        rw [Function.update_self, harr, hw3]
        exact inVals_basis hbm hdne' hfit hgb hw4

/-- All inputs. -/
theorem inputs_all (h : GOK dv op S) (hD : D.Real dv) (hne : 0 < op.ne) {s : GSt α} (hs : InSt op S inv s.vecs 0 s)
    (hr : InReadyG op inv s) (hv0 : ∀ v, (s.vecs v).state = 0 → (s.vecs v).valid = false) :
    Tr (M.loop op.nin (fun i => do
      let s ← getG
      inputG op D inv (s.tabs.inOrd.getD i 0))) s fun s' _ => InSt op S inv s.vecs op.nin s' := by
  refine Tr.mono (Tr.loop (fun i s' => InSt op S inv s.vecs i s' ∧
    (0 < i → (op.inp (ordI op (i - 1))).mode ≠ .weight → HasGather op S inv s' (ordI op (i - 1))))
    ⟨hs, fun h0 => absurd h0 (by omega)⟩ ?_) fun s' _ h => h.1
  rintro i hi s' ⟨hs', hlast⟩
  refine .bind (.get ?_)
  rw [hs'.fix.tabs]
  show Tr (inputG op D inv (ordI op i)) s' _
  have hr' : ∀ s1 : GSt α, s1.vecs = s.vecs → InReadyG op inv s1 := by
    intro s1 e
    unfold InReadyG
    rw [e]
    exact hr
  by_cases hw : (op.inp (ordI op i)).mode = .weight
  · exact Tr.mono (step_weight h hi hs' hw) fun s1 _ h1 => ⟨h1, fun _ hc => absurd hw hc⟩
  · refine .bind (Tr.mono (restrict_in h hD hi hs' (hr' s' hs'.vecs) hv0 hlast hw) ?_)
    rintro s1 _ ⟨h1, h2⟩
    unfold inputBasisG
    by_cases hm : (op.inp (ordI op i)).mode = .none
    · rw [if_pos hm]
      exact Tr.mono (step_none h hi h1 (hr' s1 h1.vecs) h2 hm) fun s2 _ h3 => ⟨h3.1, fun _ _ => h3.2⟩
    · rw [if_neg hm, if_pos ((h.inF (ordI_lt hi) hw).2.2.2 hm).1]
      exact Tr.mono (step_basis h hD hne hi h1 h2 hw hm) fun s2 _ h3 => ⟨h3.1, fun _ _ => h3.2⟩
end

end Verif.Gpu
