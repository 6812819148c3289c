import Verif.Gpu.AsmQFSpec
import Verif.Gpu.OperProps

/-!
# Passive inputs of an operator in an assembly on a device (helper lemmas)
-/

namespace Verif.Gpu

open Finset
open Verif.Restriction (TMode RData)
open Verif.Basis (EMode)
open Verif.Operator (VPtr FVec LVec isBasisMode OField Oper Meaning Advances cont)

variable {α : Type} [CommRing α] {dv : Device} {op : GOper α} {S : Meaning α} {D : Dev α} {V : Nat → LVec α}

/-- State after the passive inputs `< i`. -/
structure NatSt (op : GOper α) (S : Meaning α) (V : Nat → LVec α) (Q0 : Nat → QVec α) (i : Nat) (s : GSt α) : Prop where
  fix : Fix op S s
  vecs : s.vecs = V
  dn : s.done = true
  wr : ∀ k, k ≠ .work → (s.ev k).wr = false
  rd : ∀ k, k ≠ .work → (s.ev k).rd = ∑ j ∈ range i, reads op k j
  qout : ∀ o, (s.qOut o).bor = none
  borS : ∀ j < i, (op.inp j).vec ≠ .active → (op.inp j).mode = .none → (s.qIn j).bor = some (srcI op .null j)
  borN : ∀ f < op.nin, ((op.inp f).vec = .active ∨ (op.inp f).mode ≠ .none ∨ i ≤ f) → (s.qIn f).bor = none
  vals : ∀ j < i, (op.inp j).vec ≠ .active → GoodIn op S .null s j
  gath : ∀ j < i, (op.inp j).vec ≠ .active → (op.inp j).mode ≠ .weight → HasGather op S .null s j
  keep : ∀ f, (op.inp f).vec = .active → s.qIn f = Q0 f

variable {Q0 : Nat → QVec α} {i : Nat}

theorem passive_key {f : Nat} (ha : (op.inp f).vec ≠ .active) {k : EKey} (hk : keyI op f = some k) :
    k = .inp (lead op.inp f) ∧ op.makesIn (op.inp (lead op.inp f)) = true := by
  rcases keyI_cases hk with ⟨h1, h2, -⟩ | ⟨-, h⟩
  · exact ⟨h1, h2⟩
  · exact absurd h ha

theorem active_reads {j : Nat} (ha : (op.inp j).vec = .active) {k : EKey} (hk : k ≠ .work) : reads op k j = 0 := by
  refine if_neg fun hh => ?_
  rcases keyI_cases hh.2 with ⟨-, -, h⟩ | ⟨h, -⟩
  · exact h ha
  · exact hk h

/-- No earlier passive input has the E-vector of a leader. -/
theorem lead_key {f j : Nat} (hl : lead op.inp f = f) (haf : (op.inp f).vec ≠ .active) {k : EKey}
    (hk : keyI op f = some k) (hj : j < f) (ha : (op.inp j).vec ≠ .active) : keyI op j ≠ some k := by
  intro h
  have h1 := (passive_key haf hk).1
  have h2 := (passive_key ha h).1
  rw [h1, hl] at h2
  have := lead_le op.inp j
  have h3 := EKey.inp.inj h2
  omega

theorem borrowed_key {s : GSt α} (hs : NatSt op S V Q0 i s) (hi : i ≤ op.nin) {j : Nat} (hj : j < i) (ha : (op.inp j).vec ≠ .active) {k : EKey}
    (hb : (s.qIn j).bor = some (.ev k)) : keyI op j = some k := by
  have hm : (op.inp j).mode = .none := by
    by_contra hc
    rw [hs.borN j (by omega) (.inr (.inl hc))] at hb
    cases hb
  rw [hs.borS j hj ha hm] at hb
  unfold srcI at hb
  split at hb
  · rename_i e
    simp only [Option.some.injEq, QSrc.ev.injEq] at hb
    rw [e, hb]
  · cases hb

theorem nat_restrict (h : GOK dv op S) (hD : D.Real dv) (hi : i < op.nin) {s : GSt α} (hs : NatSt op S V Q0 i s)
    (hr : PassiveReadyG op s) (hv0 : ∀ v, (V v).state = 0 → (V v).valid = false)
    (hw : (op.inp i).mode ≠ .weight) (ha : (op.inp i).vec ≠ .active) :
    Tr (inputRestrict op D .null i) s fun s' _ => NatSt op S V Q0 i s' ∧ HasGather op S .null s' i := by
  obtain ⟨hvn, ⟨r, hrid, hgath, hdne, -⟩, -⟩ := h.inF hi hw
  obtain ⟨r', v, hr', hvec, hval, hlong⟩ := hr _ hi hw ha
  rw [hrid] at hr'
  cases hr'
  have hv : (op.inp i).vec.ptr .null = .vec v := by rw [hvec]; rfl
  refine .bind (.get ?_)
  rw [keyIn_eq h hs.fix.tabs hi]
  cases hk : keyI op i with
  | none => exact .pure ⟨hs, fun k hk' => absurd (hk.symm.trans hk') (by simp)⟩
  | some k =>
    show Tr (if s.tabs.inSkip i = true then _ else _) s _
    by_cases hsk : s.tabs.inSkip i = true
    · rw [if_pos hsk]
      refine .pure ⟨hs, ?_⟩
      have hlt := (inSkip_iff h hs.fix.tabs hi).1 hsk
      have hsame : (op.inp (lead op.inp i)).same (op.inp i) = true := lead_same _ _
      have hla : (op.inp (lead op.inp i)).vec ≠ .active := by rw [lead_vec]; exact ha
      have hlw : (op.inp (lead op.inp i)).mode ≠ .weight := by
        intro hc
        have := h.inp _ (lt_trans hlt hi)
        unfold GInOK at this
        rw [hc] at this
        have h1 := this.1
        rw [lead_vec] at h1
        exact hvn h1
      intro k' hk'
      have := hs.gath _ hlt hla hlw k' ((keyI_same hsame).trans hk')
      rwa [dat_same S hsame, (gsame_iff.1 hsame).1] at this
    · rw [if_neg hsk]
      have hl : lead op.inp i = i :=
        le_antisymm (lead_le _ _) (not_lt.1 fun hh => hsk ((inSkip_iff h hs.fix.tabs hi).2 hh))
      obtain ⟨hkk, hmk⟩ := passive_key ha hk
      rw [hl] at hkk hmk
      subst hkk
      have hst : s.stateOf ((op.inp i).vec.ptr .null) = (V v).state := by rw [hv, ← hs.vecs]; rfl
      have hcont : cont s.L ((op.inp i).vec.ptr .null) = (V v).buf.val := by
        rw [hv]
        show (s.vecs v).buf.val = _
        rw [hs.vecs]
      have hlen : (S.D r).ne * (S.D r).es * (S.D r).nc ≤ (s.ev (.inp i)).buf.len := by
        have he : op.eSize (op.inp i) = (S.D r).ne * (S.D r).es * (S.D r).nc := by
          unfold GOper.eSize; rw [hrid]; exact hgath.1
        rw [← he, hs.fix.evIn]
      refine .bind ?_
      refine Tr.mono (Q' := fun s1 _ => ∃ t w, w.len = (s.ev (.inp i)).buf.len ∧
        IsGatherG (S.dat (op.inp i).host) (V v).buf.val w.val ∧
        s1 = { s with tick := t, ev := Function.update s.ev (.inp i) { s.ev (.inp i) with valid := true, buf := w } }) ?_ ?_
      · refine .bind (.get ?_)
        by_cases hc : (op.inp i).vec = .active ∨ s.stateOf ((op.inp i).vec.ptr .null) ≠ s.states i
        · rw [if_pos hc]
          refine .bind (.ptr hrid (.bind (.readV hv hval (.bind (.openE (hs.wr _ (by simp)) ?_
            (fun h => absurd h (by simp)) ?_)))))
          · rw [hs.rd _ (by simp)]
            refine sum_eq_zero fun j hj => if_neg fun hh => ?_
            by_cases haj : (op.inp j).vec = .active
            · rcases keyI_cases hh.2 with ⟨-, -, h3⟩ | ⟨h3, -⟩
              · exact h3 haj
              · cases h3
            · exact lead_key hl ha hk (mem_range.1 hj) haj hh.2
          obtain ⟨w, hw1, hw2, t, hw3, hw4⟩ := (hD.rstr s.tick (op.rstrs r) .noTranspose (s.vecs v).buf
            (s.ev (.inp i)).buf).of_launches (hgath.2 _ _ hlong hlen)
          refine .bind (.launch hw1 (.storeE ⟨s.tick + 1, w, hw2, ?_, rfl⟩))
          rw [dat_some S hrid, hw3, ← hs.vecs]
          exact hw4
        · rw [if_neg hc]
          push Not at hc
          obtain ⟨-, heq⟩ := hc
          obtain ⟨-, hc2⟩ := hs.fix.cached _ hi hmk hl v hvec
          obtain ⟨hc3, hc4⟩ := hc2 (by rw [← heq, hst, hs.vecs]) (by
            intro h0
            rw [hs.vecs] at h0 hval
            rw [hv0 v h0] at hval
            cases hval)
          refine .pure ⟨s.tick, (s.ev (.inp i)).buf, rfl, ?_, ?_⟩
          · rw [← hs.vecs]; exact hc4
          · have : ({ s.ev (.inp i) with valid := true, buf := (s.ev (.inp i)).buf } : EVec α) = s.ev (.inp i) := by
              cases hx : s.ev (.inp i) with
              | mk a b c d =>
                rw [hx] at hc3
                simp only at hc3
                rw [hc3]
            rw [this, Function.update_eq_self]
      · rintro s1 _ ⟨t, w, hw1, hw2, rfl⟩
        refine .mod ?_
        rw [hst]
        have hne : ∀ k', k' ≠ .inp i → (Function.update s.ev (.inp i)
            { s.ev (.inp i) with valid := true, buf := w }) k' = s.ev k' := fun k' hk' => Function.update_of_ne hk' _ _
        have hupd : ∀ k', ((Function.update s.ev (.inp i) { s.ev (.inp i) with valid := true, buf := w }) k').buf.len =
            (s.ev k').buf.len ∧ ((Function.update s.ev (.inp i) { s.ev (.inp i) with valid := true, buf := w }) k').wr =
            (s.ev k').wr ∧ ((Function.update s.ev (.inp i) { s.ev (.inp i) with valid := true, buf := w }) k').rd =
            (s.ev k').rd := by
          intro k'
          by_cases hk' : k' = .inp i
          · subst hk'; rw [Function.update_self]; exact ⟨hw1, rfl, rfl⟩
          · rw [hne k' hk']; exact ⟨rfl, rfl, rfl⟩
        refine ⟨⟨⟨hs.fix.tabs, fun j => (hupd _).1.trans (hs.fix.evIn j), fun j => (hupd _).1.trans (hs.fix.evOut j),
          hs.fix.qInLen, hs.fix.qOutLen, hs.fix.wts, ?_⟩, hs.vecs, hs.dn, fun k' hk' => (hupd k').2.1.trans (hs.wr k' hk'),
          fun k' hk' => (hupd k').2.2.trans (hs.rd k' hk'), hs.qout, hs.borS, hs.borN, ?_, ?_, hs.keep⟩, ?_⟩
        · intro g hg1 hm hlg v' hv'
          show Function.update s.states i (V v).state g ≤ (s.vecs v').state ∧
            (Function.update s.states i (V v).state g = _ → _ → (Function.update s.ev (.inp i) _ (.inp g)).valid = true ∧
              IsGatherG _ _ (Function.update s.ev (.inp i) _ (.inp g)).buf.val)
          by_cases hgf : g = i
          · subst hgf
            have hvv : v' = v := by rw [hvec] at hv'; cases hv'; rfl
            subst hvv
            rw [Function.update_self, Function.update_self, hs.vecs]
            exact ⟨le_rfl, fun _ _ => ⟨rfl, hw2⟩⟩
          · rw [Function.update_of_ne hgf, hne _ (fun e => hgf (EKey.inp.inj e))]
            exact hs.fix.cached g hg1 hm hlg v' hv'
        · intro j hj haj
          refine goodIn_congr (s := s) rfl rfl (fun k' hb => ?_) (hs.vals j hj haj)
          show (Function.update s.ev (.inp i) _ k').buf = _
          rw [hne _ fun e => lead_key hl ha hk hj haj (e ▸ borrowed_key hs hi.le hj haj hb)]
        · intro j hj haj hwj
          refine hasGather_congr (s := s) rfl (fun k' hk' => ?_) (hs.gath j hj haj hwj)
          show (Function.update s.ev (.inp i) _ k').valid = _ ∧ (Function.update s.ev (.inp i) _ k').buf = _
          rw [hne _ fun e => lead_key hl ha hk hj haj (e ▸ hk')]
          exact ⟨rfl, rfl⟩
        · intro k' hk'
          rw [hk] at hk'
          cases hk'
          show (Function.update s.ev (.inp i) _ (.inp i)).valid = true ∧
            IsGatherG _ (cont s.L _) (Function.update s.ev (.inp i) _ (.inp i)).buf.val
          rw [Function.update_self, hcont]
          exact ⟨rfl, hw2⟩

/-- An active input is skipped. -/
theorem nat_skip {s : GSt α} (hs : NatSt op S V Q0 i s) (ha : (op.inp i).vec = .active) : NatSt op S V Q0 (i + 1) s := by
  refine ⟨hs.fix, hs.vecs, hs.dn, hs.wr, fun k hk => ?_, hs.qout, fun j hj haj hm => ?_, fun f hf hh => ?_, fun j hj haj => ?_,
    fun j hj haj => ?_, hs.keep⟩
  · rw [sum_range_succ, active_reads ha hk]; exact hs.rd k hk
  · rcases Nat.lt_succ_iff_lt_or_eq.1 hj with h1 | rfl
    · exact hs.borS j h1 haj hm
    · exact absurd ha haj
  · refine hs.borN f hf ?_
    rcases hh with h1 | h1 | h1
    · exact .inl h1
    · exact .inr (.inl h1)
    · exact .inr (.inr (by omega))
  · rcases Nat.lt_succ_iff_lt_or_eq.1 hj with h1 | rfl
    · exact hs.vals j h1 haj
    · exact absurd ha haj
  · rcases Nat.lt_succ_iff_lt_or_eq.1 hj with h1 | rfl
    · exact hs.gath j h1 haj
    · exact absurd ha haj

theorem nat_weight (h : GOK dv op S) (hi : i < op.nin) {s : GSt α} (hs : NatSt op S V Q0 i s)
    (hw : (op.inp i).mode = .weight) :
    Tr (inputG op D .null i) s fun s' _ => NatSt op S V Q0 (i + 1) s' := by
  have hin := h.inp _ hi
  unfold GInOK at hin
  rw [hw] at hin
  obtain ⟨hvn, hrn, hsz, -⟩ := hin
  have hk : keyI op i = none := by
    cases hk : keyI op i with
    | none => rfl
    | some k =>
      exfalso
      obtain ⟨-, hm⟩ := passive_key (by rw [hvn]; simp) hk
      have hlv : (op.inp (lead op.inp i)).vec = .none := by rw [lead_vec]; exact hvn
      have hlt : lead op.inp i < op.nin := lt_of_le_of_lt (lead_le _ _) hi
      have hlw : (op.inp (lead op.inp i)).mode = .weight := by
        by_contra hc
        exact (h.inF hlt hc).1 hlv
      unfold GOper.makesIn at hm
      rw [hlw] at hm
      simp at hm
  refine .bind (.bind (.get ?_))
  rw [keyIn_eq h hs.fix.tabs hi, hk]
  refine .pure ?_
  unfold inputBasisG
  rw [hw, if_neg (by simp), if_neg (by simp [isBasisMode])]
  refine .pure ⟨hs.fix, hs.vecs, hs.dn, hs.wr, fun k hk' => ?_, hs.qout, fun j hj haj hm => ?_, fun f hf hh => ?_,
    fun j hj haj => ?_, fun j hj haj hwj => ?_, hs.keep⟩
  · rw [sum_range_succ, hs.rd k hk', show reads op k i = 0 from if_neg (by simp [hw])]
    rfl
  · rcases Nat.lt_succ_iff_lt_or_eq.1 hj with h1 | rfl
    · exact hs.borS j h1 haj hm
    · rw [hw] at hm; cases hm
  · refine hs.borN f hf ?_
    rcases hh with h1 | h1 | h1
    · exact .inl h1
    · exact .inr (.inl h1)
    · exact .inr (.inr (by omega))
  · rcases Nat.lt_succ_iff_lt_or_eq.1 hj with h1 | rfl
    · exact hs.vals j h1 haj
    · obtain ⟨w1, w2, w3, w4⟩ := hs.fix.wts _ hi hw
      have ha : s.arr (s.qIn j) = (s.qIn j).buf := by unfold GSt.arr; rw [w2]
      refine ⟨.inr w1, ?_, ?_⟩
      · rw [ha, w3, hsz]; omega
      · rw [ha]; exact inVals_weight hw hsz w4
  · rcases Nat.lt_succ_iff_lt_or_eq.1 hj with h1 | rfl
    · exact hs.gath j h1 haj hwj
    · exact absurd hw hwj

/-- A change of the array of input `i` and of numbers of readers. -/
theorem nat_next (hi : i < op.nin) {s s' : GSt α} (hs : NatSt op S V Q0 i s) (ha : (op.inp i).vec ≠ .active)
    (hw : (op.inp i).mode ≠ .weight)
    (ht : s'.tabs = s.tabs) (hst : s'.states = s.states) (hv : s'.vecs = s.vecs) (hd : s'.done = s.done)
    (hqo : s'.qOut = s.qOut) (hq : ∀ g, g ≠ i → s'.qIn g = s.qIn g) (hql : (s'.qIn i).buf.len = (s.qIn i).buf.len)
    (hev : ∀ k, (s'.ev k).buf = (s.ev k).buf ∧ (s'.ev k).valid = (s.ev k).valid ∧ (s'.ev k).wr = (s.ev k).wr)
    (hrd : ∀ k, (s'.ev k).rd = (s.ev k).rd + reads op k i)
    (hbS : (op.inp i).mode = .none → (s'.qIn i).bor = some (srcI op .null i))
    (hbN : (op.inp i).mode ≠ .none → (s'.qIn i).bor = none)
    (hg : GoodIn op S .null s' i) (hh : HasGather op S .null s i) : NatSt op S V Q0 (i + 1) s' := by
  refine ⟨⟨ht.trans hs.fix.tabs, fun j => by rw [(hev _).1]; exact hs.fix.evIn j, fun j => by rw [(hev _).1]; exact hs.fix.evOut j,
    fun g h1 h2 => ?_, fun o => by rw [hqo]; exact hs.fix.qOutLen o, fun g h1 h2 => ?_,
    hs.fix.cachedOf hst hv fun f => ⟨(hev _).2.1, (hev _).1⟩⟩, hv.trans hs.vecs, hd.trans hs.dn,
    fun k hk => by rw [(hev _).2.2]; exact hs.wr k hk, fun k hk => by rw [hrd, sum_range_succ, hs.rd k hk],
    fun o => by rw [hqo]; exact hs.qout o, fun j hj haj hm => ?_, fun f hf hh => ?_, fun j hj haj => ?_, fun j hj haj hwj => ?_,
    fun f hf => ?_⟩
  · by_cases hgi : g = i
    · subst hgi; rw [hql]; exact hs.fix.qInLen g h1 h2
    · rw [hq g hgi]; exact hs.fix.qInLen g h1 h2
  · rw [hq g (by rintro rfl; exact hw h2)]; exact hs.fix.wts g h1 h2
  · rcases Nat.lt_succ_iff_lt_or_eq.1 hj with h1 | rfl
    · rw [hq j (by omega)]; exact hs.borS j h1 haj hm
    · exact hbS hm
  · by_cases hgi : f = i
    · subst hgi
      refine hbN ?_
      rcases hh with h1 | h1 | h1
      · exact absurd h1 ha
      · exact h1
      · omega
    · rw [hq f hgi]
      refine hs.borN f hf ?_
      rcases hh with h1 | h1 | h1
      · exact .inl h1
      · exact .inr (.inl h1)
      · exact .inr (.inr (by omega))
  · rcases Nat.lt_succ_iff_lt_or_eq.1 hj with h1 | rfl
    · exact goodIn_congr (s := s) (hq j (by omega)) hv (fun k' _ => (hev k').1) (hs.vals j h1 haj)
    · exact hg
  · refine hasGather_congr (s := s) hv (fun k' _ => ⟨(hev k').2.1, (hev k').1⟩) ?_
    rcases Nat.lt_succ_iff_lt_or_eq.1 hj with h1 | rfl
    · exact hs.gath j h1 haj hwj
    · exact hh
  · rw [hq f (by rintro rfl; exact ha hf)]; exact hs.keep f hf

theorem nat_none (h : GOK dv op S) (hi : i < op.nin) {s : GSt α} (hs : NatSt op S V Q0 i s)
    (hr : PassiveReadyG op s) (ha : (op.inp i).vec ≠ .active) (hg : HasGather op S .null s i)
    (hm : (op.inp i).mode = .none) :
    Tr (borrowIn op .null i) s fun s' _ => NatSt op S V Q0 (i + 1) s' := by
  have hw : (op.inp i).mode ≠ .weight := by rw [hm]; simp
  obtain ⟨hvn, hrst, hno, -⟩ := h.inF hi hw
  obtain ⟨hes, hsz⟩ := hno hm
  have heS := hrst.eSize
  obtain ⟨r, hrid, hgath, hdne, hdir⟩ := hrst
  have hdne' : (S.dat (op.inp i).host).ne = op.ne := by rw [dat_some S hrid, hdne]
  obtain ⟨r', v, hr', hvec, hval, hlong⟩ := hr _ hi hw ha
  rw [hrid] at hr'
  cases hr'
  have hv : (op.inp i).vec.ptr .null = .vec v := by rw [hvec]; rfl
  refine .bind (.get ?_)
  rw [keyIn_eq h hs.fix.tabs hi]
  have hsize : op.ne * op.Q * (op.inp i).size = op.eSize (op.inp i) := by rw [heS, hes, hsz]
  cases hk : keyI op i with
  | some k =>
    obtain ⟨hgv, hgb⟩ := hg k hk
    obtain ⟨hk1, -⟩ := passive_key ha hk
    refine .bind (.readE (hs.wr k (by rw [hk1]; simp)) hgv (.bind (.mod (.mod ?_))))
    have hev : ∀ k', ((Function.update s.ev k { s.ev k with rd := (s.ev k).rd + 1 }) k').buf = (s.ev k').buf ∧
        ((Function.update s.ev k { s.ev k with rd := (s.ev k).rd + 1 }) k').valid = (s.ev k').valid ∧
        ((Function.update s.ev k { s.ev k with rd := (s.ev k).rd + 1 }) k').wr = (s.ev k').wr := by
      intro k'
      by_cases hk' : k' = k
      · subst hk'; rw [Function.update_self]; exact ⟨rfl, rfl, rfl⟩
      · rw [Function.update_of_ne hk']; exact ⟨rfl, rfl, rfl⟩
    refine nat_next hi hs ha hw rfl rfl rfl rfl rfl (fun g hgne => Function.update_of_ne hgne _ _)
      (by show (Function.update s.qIn i { s.qIn i with bor := some (.ev k) } i).buf.len = _; rw [Function.update_self])
      hev (fun k' => ?_) (fun _ => ?_) (fun hc => absurd hm hc) ⟨.inl ?_, ?_, ?_⟩ hg
    · show (Function.update s.ev k _ k').rd = _
      by_cases hk' : k' = k
      · subst hk'; rw [Function.update_self, show reads op k' i = 1 from if_pos ⟨hm, hk⟩]
      · rw [Function.update_of_ne hk', show reads op k' i = 0 from if_neg fun hh => hk' (Option.some.inj (hk.symm.trans hh.2)).symm]
        rfl
    · show (Function.update s.qIn i _ i).bor = _
      rw [Function.update_self]
      unfold srcI
      rw [hk]
    · show (Function.update s.qIn i _ i).bor.isSome = true
      rw [Function.update_self]; rfl
    · show _ ≤ (GSt.arr _ (Function.update s.qIn i _ i)).len
      rw [Function.update_self]
      show _ ≤ ((Function.update s.ev k { s.ev k with rd := (s.ev k).rd + 1 }) k).buf.len
      rw [(hev k).1, hsize, hk1, hs.fix.evIn, ← eSize_same (lead_same op.inp i)]
    · show InVals _ _ _ _ _ (GSt.arr _ (Function.update s.qIn i _ i)).val
      rw [Function.update_self]
      show InVals _ _ s.L _ _ ((Function.update s.ev k { s.ev k with rd := (s.ev k).rd + 1 }) k).buf.val
      rw [(hev k).1]
      exact inVals_none hm hdne' hes hsz hgb
  | none =>
    obtain ⟨-, hbk⟩ := keyI_none h hi hk hw
    have hds : (op.rstrs r).backendStrided = true := by unfold GOper.backend at hbk; rw [hrid] at hbk; exact hbk
    obtain ⟨hd1, hd2⟩ := hdir hds
    refine .bind (.readV hv hval (.bind (.ptr (b := v) (by rw [hv]; rfl) (.mod ?_))))
    refine nat_next hi hs ha hw rfl rfl rfl rfl rfl (fun g hgne => Function.update_of_ne hgne _ _)
      (by show (Function.update s.qIn i { s.qIn i with bor := some (.vec v) } i).buf.len = _; rw [Function.update_self])
      (fun _ => ⟨rfl, rfl, rfl⟩) (fun k' => ?_) (fun _ => ?_) (fun hc => absurd hm hc) ⟨.inl ?_, ?_, ?_⟩ hg
    · rw [show reads op k' i = 0 from if_neg fun hh => absurd (hk.symm.trans hh.2) (by simp)]
      rfl
    · show (Function.update s.qIn i _ i).bor = _
      rw [Function.update_self]
      unfold srcI
      rw [hk, hv]; rfl
    · show (Function.update s.qIn i _ i).bor.isSome = true
      rw [Function.update_self]; rfl
    · show _ ≤ (GSt.arr _ (Function.update s.qIn i _ i)).len
      rw [Function.update_self]
      show _ ≤ (s.vecs v).buf.len
      rw [hsize, heS, dat_some S hrid, ← hdne]
      omega
    · show InVals _ _ _ _ _ (GSt.arr _ (Function.update s.qIn i _ i)).val
      rw [Function.update_self]
      show InVals _ _ s.L _ _ (s.vecs v).buf.val
      refine inVals_none hm hdne' hes hsz ?_
      rw [hv, dat_some S hrid]
      exact hd2 _

theorem nat_basis (h : GOK dv op S) (hD : D.Real dv) (hne : 0 < op.ne) (hi : i < op.nin) {s : GSt α}
    (hs : NatSt op S V Q0 i s) (ha : (op.inp i).vec ≠ .active) (hg : HasGather op S .null s i)
    (hw : (op.inp i).mode ≠ .weight) (hm : (op.inp i).mode ≠ .none) :
    Tr (basisInG op D i) s fun s' _ => NatSt op S V Q0 (i + 1) s' := by
  obtain ⟨hvn, hrst, -, hyes⟩ := h.inF hi hw
  obtain ⟨hbm, b, hfit, hmul⟩ := hyes hm
  have heS := hrst.eSize
  obtain ⟨r, hrid, hgath, hdne, hdir⟩ := hrst
  have hdne' : (S.dat (op.inp i).host).ne = op.ne := by rw [dat_some S hrid, hdne]
  have hborf : (s.qIn i).bor = none := hs.borN _ hi (.inr (.inl hm))
  obtain ⟨k, hk⟩ : ∃ k, keyI op i = some k := by
    cases hk : keyI op i with
    | none => exact absurd (keyI_none h hi hk hw).1 hm
    | some k => exact ⟨k, rfl⟩
  obtain ⟨hgv, hgb⟩ := hg k hk
  obtain ⟨hk1, -⟩ := passive_key ha hk
  refine .bind (.get (.bind (.ptr hfit.1 (.bind (.ptr (b := k) (by rw [keyIn_eq h hs.fix.tabs hi, hk])
    (.bind (.readE (hs.wr k (by rw [hk1]; simp)) hgv (.bind ?_))))))))
  have hlen1 : op.ne * b.bas.nc * b.bas.P ≤ (s.ev k).buf.len := by
    have : op.ne * b.bas.nc * b.bas.P = op.eSize (op.inp i) := by
      rw [heS, hfit.2.1, hfit.2.2.1]; ring
    rw [this, hk1, hs.fix.evIn, ← eSize_same (lead_same op.inp i)]
  have hqlen := hs.fix.qInLen _ hi hw
  have hlen2 : op.ne * b.bas.Q * b.bas.nc * b.bas.qComp (op.inp i).mode ≤ (s.qIn i).buf.len := by
    rw [hqlen, hfit.2.2.2.2, hfit.2.2.1, hfit.2.2.2.1, mul_assoc]
  obtain ⟨junk, hout⟩ := hD.basis s.tick b op.ne .noTranspose (op.inp i).mode (some (s.ev k).buf) (s.qIn i).buf
  obtain ⟨w, hw1, hw2, t, hw3, hw4, -, -⟩ := hout.of_launches (hmul junk op.ne _ _ hne hlen1 hlen2)
  refine .launch hw1 (.mod ?_)
  have harr : ∀ s' : GSt α, GSt.arr s' { s.qIn i with valid := true, buf := w } = w := by
    intro s'
    unfold GSt.arr
    rw [hborf]
  refine nat_next hi hs ha hw rfl rfl rfl rfl rfl (fun g hgne => Function.update_of_ne hgne _ _)
    (by show (Function.update s.qIn i { s.qIn i with valid := true, buf := w } i).buf.len = _
        rw [Function.update_self]; exact hw2)
    (fun _ => ⟨rfl, rfl, rfl⟩) (fun k' => ?_) (fun hc => absurd hc hm) (fun _ => ?_) ⟨.inr ?_, ?_, ?_⟩ hg
  · rw [show reads op k' i = 0 from if_neg fun hh => hm hh.1]
    rfl
  · show (Function.update s.qIn i { s.qIn i with valid := true, buf := w } i).bor = _
    rw [Function.update_self]; exact hborf
  · show (Function.update s.qIn i _ i).valid = true
    rw [Function.update_self]
  · show _ ≤ (GSt.arr _ (Function.update s.qIn i _ i)).len
    rw [Function.update_self, harr, hw2, hqlen]
  · show InVals _ _ s.L _ _ (GSt.arr _ (Function.update s.qIn i _ i)).val
    rw [Function.update_self, harr, hw3]
    exact inVals_basis hbm hdne' hfit hgb hw4

/-- All passive inputs. -/
theorem nat_inputs (h : GOK dv op S) (hD : D.Real dv) (hne : 0 < op.ne) {s : GSt α} (hd : s.done = true) (hs : Rest op S s)
    (hr : PassiveReadyG op s) (hv0 : ∀ v, (s.vecs v).state = 0 → (s.vecs v).valid = false) :
    Tr (M.loop op.nin (inputP op D)) s fun s' _ => NatSt op S s.vecs s.qIn op.nin s' := by
  refine Tr.loop (fun i s' => NatSt op S s.vecs s.qIn i s')
    ⟨hs.fix, rfl, hd, hs.wr, fun k hk => by rw [hs.rd k hk]; rfl, hs.borO, fun j hj => absurd hj (by omega),
      fun f hf _ => hs.borI f hf, fun j hj => absurd hj (by omega), fun j hj => absurd hj (by omega), fun _ _ => rfl⟩ ?_
  intro i hi s' hs'
  have hr' : ∀ s1 : GSt α, s1.vecs = s.vecs → PassiveReadyG op s1 := by
    intro s1 e
    unfold PassiveReadyG
    rw [e]
    exact hr
  unfold inputP
  by_cases ha : (op.inp i).vec = .active
  · rw [if_pos ha]; exact .pure (nat_skip hs' ha)
  rw [if_neg ha]
  by_cases hw : (op.inp i).mode = .weight
  · exact nat_weight h hi hs' hw
  · refine .bind (Tr.mono (nat_restrict h hD hi hs' (hr' s' hs'.vecs) hv0 hw ha) ?_)
    rintro s1 _ ⟨h1, h2⟩
    unfold inputBasisG
    by_cases hm : (op.inp i).mode = .none
    · rw [if_pos hm]
      exact nat_none h hi h1 (hr' s1 h1.vecs) ha h2 hm
    · rw [if_neg hm, if_pos ((h.inF hi hw).2.2.2 hm).1]
      exact nat_basis h hD hne hi h1 ha h2 hw hm

/-! ## Restoring -/

/-- State when the first `r` inputs are restored. -/
structure ResSt (op : GOper α) (S : Meaning α) (V : Nat → LVec α) (Q0 : Nat → QVec α) (r : Nat) (s : GSt α) : Prop where
  fix : Fix op S s
  vecs : s.vecs = V
  dn : s.done = true
  wr : ∀ k, k ≠ .work → (s.ev k).wr = false
  rd : ∀ k, k ≠ .work → (s.ev k).rd + ∑ j ∈ range r, reads op k j = ∑ j ∈ range op.nin, reads op k j
  qout : ∀ o, (s.qOut o).bor = none
  borS : ∀ j < op.nin, r ≤ j → (op.inp j).vec ≠ .active → (op.inp j).mode = .none → (s.qIn j).bor = some (srcI op .null j)
  borN : ∀ f < op.nin, ((op.inp f).vec = .active ∨ (op.inp f).mode ≠ .none ∨ f < r) → (s.qIn f).bor = none
  keep : ∀ f, (op.inp f).vec = .active → s.qIn f = Q0 f

theorem res_step (h : GOK dv op S) {f : Nat} (hf : f < op.nin) {s : GSt α} (hs : ResSt op S V Q0 f s) :
    Tr (restoreP op f) s fun s' _ => ResSt op S V Q0 (f + 1) s' := by
  have hsum : ∀ k, ∑ j ∈ range (f + 1), reads op k j = ∑ j ∈ range f, reads op k j + reads op k f :=
    fun k => sum_range_succ _ _
  have hstay : (∀ k, k ≠ .work → reads op k f = 0) → (s.qIn f).bor = none → ResSt op S V Q0 (f + 1) s := by
    intro h0 hb
    refine ⟨hs.fix, hs.vecs, hs.dn, hs.wr, fun k hk => by rw [hsum, h0 k hk]; exact hs.rd k hk, hs.qout,
      fun j h1 h2 => hs.borS j h1 (by omega), fun g h1 h2 => ?_, hs.keep⟩
    by_cases hg : g = f
    · subst hg; exact hb
    · refine hs.borN g h1 ?_
      rcases h2 with h2 | h2 | h2
      · exact .inl h2
      · exact .inr (.inl h2)
      · exact .inr (.inr (by omega))
  unfold restoreP
  by_cases ha : (op.inp f).vec = .active
  · rw [if_pos ha]
    exact .pure (hstay (fun k hk => active_reads ha hk) (hs.borN f hf (.inl ha)))
  rw [if_neg ha]
  unfold inputRestore
  by_cases hm : (op.inp f).mode = .none
  swap
  · rw [if_neg hm]
    exact .pure (hstay (fun k _ => if_neg fun hh => hm hh.1) (hs.borN f hf (.inr (.inl hm))))
  rw [if_pos hm]
  have hb := hs.borS f hf le_rfl ha hm
  refine .bind (.get (.bind (.check (by rw [hb]; rfl) (.bind (.mod ?_)))))
  rw [keyIn_eq h hs.fix.tabs hf]
  set q : QVec α := { s.qIn f with valid := false, bor := none } with hq
  have hqne : ∀ g, g ≠ f → (Function.update s.qIn f q) g = s.qIn g := fun g hg => Function.update_of_ne hg _ _
  have hqlen : ∀ i < op.nin, (op.inp i).mode ≠ .weight → (Function.update s.qIn f q i).buf.len = op.ne * op.Q * (op.inp i).size := by
    intro g h1 h2
    by_cases hg : g = f
    · subst hg; rw [Function.update_self]; exact hs.fix.qInLen g h1 h2
    · rw [hqne g hg]; exact hs.fix.qInLen g h1 h2
  have hwts : ∀ i < op.nin, (op.inp i).mode = .weight → (Function.update s.qIn f q i).valid = true ∧
      (Function.update s.qIn f q i).bor = none ∧ (Function.update s.qIn f q i).buf.len = op.ne * op.Q ∧
      ∀ e < op.ne, ∀ q' < op.Q, (Function.update s.qIn f q i).buf.val (e * op.Q + q') = S.w i q' := by
    intro g h1 h2
    have hg : g ≠ f := by rintro rfl; rw [hm] at h2; cases h2
    rw [hqne g hg]; exact hs.fix.wts g h1 h2
  have hborS : ∀ j < op.nin, f + 1 ≤ j → (op.inp j).vec ≠ .active → (op.inp j).mode = .none →
      (Function.update s.qIn f q j).bor = some (srcI op .null j) := by
    intro j h1 h2 h3 h4
    rw [hqne j (by omega)]; exact hs.borS j h1 (by omega) h3 h4
  have hborN : ∀ j < op.nin, ((op.inp j).vec = .active ∨ (op.inp j).mode ≠ .none ∨ j < f + 1) →
      (Function.update s.qIn f q j).bor = none := by
    intro j h1 h2
    by_cases hg : j = f
    · subst hg; rw [Function.update_self]
    · rw [hqne j hg]
      refine hs.borN j h1 ?_
      rcases h2 with h2 | h2 | h2
      · exact .inl h2
      · exact .inr (.inl h2)
      · exact .inr (.inr (by omega))
  have hkeep : ∀ g, (op.inp g).vec = .active → Function.update s.qIn f q g = Q0 g := by
    intro g hg
    rw [hqne g (by rintro rfl; exact ha hg)]; exact hs.keep g hg
  cases hk : keyI op f with
  | some k =>
    obtain ⟨hk1, -⟩ := passive_key ha hk
    have hkw : k ≠ .work := by rw [hk1]; simp
    have hread : reads op k f = 1 := if_pos ⟨hm, hk⟩
    have htot : ∑ j ∈ range (f + 1), reads op k j ≤ ∑ j ∈ range op.nin, reads op k j :=
      sum_le_sum_of_subset (range_subset_range.2 (by omega))
    have hrdk := hs.rd k hkw
    rw [hsum, hread] at htot
    refine .bind (.check (by omega) (.mod ?_))
    have hev : ∀ k', ((Function.update s.ev k { s.ev k with rd := (s.ev k).rd - 1 }) k').buf = (s.ev k').buf ∧
        ((Function.update s.ev k { s.ev k with rd := (s.ev k).rd - 1 }) k').wr = (s.ev k').wr ∧
        ((Function.update s.ev k { s.ev k with rd := (s.ev k).rd - 1 }) k').valid = (s.ev k').valid := by
      intro k'
      by_cases hk' : k' = k
      · subst hk'; rw [Function.update_self]; exact ⟨rfl, rfl, rfl⟩
      · rw [Function.update_of_ne hk']; exact ⟨rfl, rfl, rfl⟩
    refine ⟨⟨hs.fix.tabs, fun i => by rw [(hev _).1]; exact hs.fix.evIn i, fun i => by rw [(hev _).1]; exact hs.fix.evOut i,
      hqlen, hs.fix.qOutLen, hwts, hs.fix.cachedOf rfl rfl fun f => ⟨(hev _).2.2, (hev _).1⟩⟩, hs.vecs, hs.dn,
      fun k' hk' => by rw [(hev _).2.1]; exact hs.wr k' hk', fun k' hk' => ?_, hs.qout, hborS, hborN, hkeep⟩
    rw [hsum]
    show (Function.update s.ev k _ k').rd + _ = _
    by_cases hk2 : k' = k
    · subst hk2
      rw [Function.update_self, hread]
      show (s.ev k').rd - 1 + _ = _
      omega
    · rw [Function.update_of_ne hk2, ← hs.rd k' hk']
      have : reads op k' f = 0 := if_neg fun hh => hk2 (Option.some.inj (hk.symm.trans hh.2)).symm
      omega
  | none =>
    refine .pure ⟨⟨hs.fix.tabs, hs.fix.evIn, hs.fix.evOut, hqlen, hs.fix.qOutLen, hwts, hs.fix.cached⟩, hs.vecs, hs.dn,
      hs.wr, fun k' hk' => ?_, hs.qout, hborS, hborN, hkeep⟩
    rw [hsum, ← hs.rd k' hk']
    have : reads op k' f = 0 := if_neg fun hh => absurd (hk.symm.trans hh.2) (by simp)
    show (s.ev k').rd + _ = _
    omega

/-- All inputs are restored. -/
theorem res_all (h : GOK dv op S) {s : GSt α} (hs : NatSt op S V Q0 op.nin s) :
    Tr (M.loop op.nin (restoreP op)) s fun s' _ => s'.done = true ∧ Rest op S s' ∧ s'.vecs = V ∧
      ∀ f, (op.inp f).vec = .active → s'.qIn f = Q0 f := by
  refine Tr.mono (Tr.loop (fun i s' => ResSt op S V Q0 i s')
    ⟨hs.fix, hs.vecs, hs.dn, hs.wr, fun k hk => by rw [hs.rd k hk]; rfl, hs.qout, fun j h1 _ => hs.borS j h1,
      fun f h1 h2 => hs.borN f h1 ?_, hs.keep⟩ fun i hi s' hs' => res_step h hi hs') ?_
  · rcases h2 with h2 | h2 | h2
    · exact .inl h2
    · exact .inr (.inl h2)
    · omega
  · intro s' _ h'
    refine ⟨h'.dn, ⟨h'.fix, h'.wr, fun k hk => ?_, h'.qout, fun j hj => h'.borN j hj (.inr (.inr hj))⟩, h'.vecs, h'.keep⟩
    have := h'.rd k hk
    omega

end Verif.Gpu
