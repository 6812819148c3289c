import Verif.Operator.OptAsmBlk

/-!
# Histories with assemblies on blocks (helper lemmas)
-/

set_option linter.unusedSectionVars false

namespace Verif
namespace Operator

open Finset
open Restriction (RData Made Rstr Rep laneEnd stridedData)
open Basis (Bas EMode)

variable {α : Type} [CommRing α]

theorem liftO_wp {β : Type} {R : Prop} {m : M (OSt α) β} {s : BSt α} {Q : BSt α → β → Prop} {E : BSt α → Err → Prop}
    (h : M.wp R m s.o (fun t b => Q { s with a := { s.a with st := t.base }, br := t.br, eBlk := t.eBlk } b)
      (fun t c => E { s with a := { s.a with st := t.base }, br := t.br, eBlk := t.eBlk } c)) : M.wp R (liftO m) s Q E := by
  unfold M.wp at h ⊢
  unfold liftO
  cases e : m s.o <;> rw [e] at h <;> exact h

theorem liftAB_wp {β : Type} {R : Prop} {m : M (ASt α) β} {s : BSt α} {Q : BSt α → β → Prop} {E : BSt α → Err → Prop}
    (h : M.wp R m s.a (fun t b => Q { s with a := t } b) (fun t c => E { s with a := t } c)) : M.wp R (liftAB m) s Q E := by
  unfold M.wp at h ⊢
  unfold liftAB
  cases e : m s.a <;> rw [e] at h <;> exact h

theorem liftO_eq_ok {β : Type} {m : M (OSt α) β} {s s' : BSt α} {b : β} (h : liftO m s = .ok s' b) :
    ∃ t, m s.o = .ok t b ∧ s' = { s with a := { s.a with st := t.base }, br := t.br, eBlk := t.eBlk } := by
  unfold liftO at h
  split at h
  · cases h; exact ⟨_, by assumption, rfl⟩
  · cases h
  · cases h

theorem liftO_eq_err {β : Type} {m : M (OSt α) β} {s s' : BSt α} {c : Err} (h : liftO m s = .err s' c) :
    ∃ t, m s.o = .err t c ∧ s' = { s with a := { s.a with st := t.base }, br := t.br, eBlk := t.eBlk } := by
  unfold liftO at h
  split at h
  · cases h
  · cases h; exact ⟨_, by assumption, rfl⟩
  · cases h

/-! ## Counting -/

theorem zeroActiveB_ok {op : Oper α} {S : Meaning α} {bs : Nat}
    (hwt : ∀ i < op.nin, (op.inp i).mode = .weight → (op.inp i).vec ≠ .active) (F : Nat → (Nat → Nat → α) → Nat → Nat → α)
    {s : ASt α} (hq : QB op S bs s.st.impl.qIn) :
    ∃ q, M.loop op.nin (fun i => liftS (zeroActive op i)) s = .ok { s with st := s.st.put q s.st.impl.eOut } () ∧
      QB op S bs q ∧ ActZero (op.wide F bs) q := by
  obtain ⟨q, e1, h1, h2⟩ := loop_ok (n := op.nin) (body := fun i => liftS (zeroActive op i))
    (fun q => ({ s with st := s.st.put q s.st.impl.eOut } : ASt α))
    (fun j q => QB op S bs q ∧ ∀ i < j, (op.inp i).vec = .active → ∀ x, (q i).val x = 0)
    (a := s.st.impl.qIn) ⟨hq, fun i hi => absurd hi (by omega)⟩
    (by
      rintro i hi q ⟨h1, h2⟩
      by_cases ha : (op.inp i).vec = .active
      · refine ⟨Function.update q i ⟨(q i).len, fun _ => 0⟩, ?_, ?_, ?_⟩
        · refine liftS_ok ?_
          unfold zeroActive
          simp only [M.bind_apply, getS, Out.bind_ok, if_pos ha, setQ, modI, St.put]
        · intro j hj
          by_cases hji : j = i
          · subst hji
            rw [Function.update_self]
            exact ⟨(h1 j hj).1, fun hw => absurd ha (hwt j hj hw)⟩
          · rw [Function.update_of_ne hji]; exact h1 j hj
        · intro j hj haj x
          by_cases hji : j = i
          · subst hji; rw [Function.update_self]
          · rw [Function.update_of_ne hji]; exact h2 j (by omega) haj x
      · refine ⟨q, ?_, h1, ?_⟩
        · refine liftS_ok ?_
          unfold zeroActive
          simp only [M.bind_apply, getS, Out.bind_ok, if_neg ha, M.pure_apply]
        · intro j hj haj x
          have : j ≠ i := by rintro rfl; exact ha haj
          exact h2 j (by omega) haj x)
  exact ⟨q, e1, h1, fun i hi ha x _ => h2 i hi ha x⟩

theorem countInB_wp {op : Oper α} {S : Meaning α} {bs : Nat}
    (hwt : ∀ i < op.nin, (op.inp i).mode = .weight → (op.inp i).vec ≠ .active) (F : Nat → (Nat → Nat → α) → Nat → Nat → α)
    {s : ASt α} (hq : QB op S bs s.st.impl.qIn)
    (hs : s.szIn = 0 ∨ (s.szIn = op.cIn ∧ 0 < op.cIn)) {R : Prop} (hR : R → 0 < op.cIn) :
    M.wp R (countIn op) s (fun s' _ => 0 < op.cIn ∧ ∃ q, s' = { s with st := s.st.put q s.st.impl.eOut, szIn := op.cIn } ∧
        QB op S bs q ∧ (s.szIn = 0 ∨ Clean (op.wide F bs) s.st.impl.qIn → Clean (op.wide F bs) q))
      (fun s' _ => ¬ R ∧ ∃ q, s' = { s with st := s.st.put q s.st.impl.eOut } ∧ QB op S bs q) := by
  have hcs : countSizes op.inp op.nin = op.cIn := countSizes_eq _ _
  by_cases h0 : s.szIn = 0
  · obtain ⟨q, e1, h1, h2⟩ := zeroActiveB_ok hwt F hq
    by_cases hp : 0 < op.cIn
    · refine M.wp_of_eq_ok (s' := { s with st := s.st.put q s.st.impl.eOut, szIn := op.cIn }) (a := ()) ?_
        ⟨hp, q, rfl, h1, fun _ => Or.inl h2⟩
      unfold countIn
      simp only [M.bind_apply, getA, Out.bind_ok, if_pos h0, e1, hcs, M.check_true hp, modA]
    · refine M.wp_of_eq_err (s' := { s with st := s.st.put q s.st.impl.eOut }) (a := .backend) ?_
        ⟨fun r => hp (hR r), q, rfl, h1⟩
      unfold countIn
      simp only [M.bind_apply, getA, Out.bind_ok, if_pos h0, e1, hcs, M.check_false hp, Out.bind_err]
  · rcases hs with hs | ⟨hs, hp⟩
    · exact absurd hs h0
    refine M.wp_of_eq_ok (s' := s) (a := ()) ?_ ⟨hp, s.st.impl.qIn, ?_, hq, ?_⟩
    · unfold countIn
      simp only [M.bind_apply, getA, Out.bind_ok, if_neg h0, M.pure_apply]
    · rw [← hs]; rfl
    · rintro (hh | hh)
      · exact absurd hh h0
      · exact hh

/-! ## The restriction of the assembled vector -/

theorem strides_range (op : Oper α) {K : Nat} (hK : K = op.cIn * op.cOut) :
    Restriction.StridesInRange op.ne op.Q K ((K * op.ne * op.Q : Nat) : Int) (1, op.Q, ((K * op.Q : Nat) : Int)) := by
  intro e he m hm k hk
  have h1 : ((m : Int) * 1 + k * op.Q + e * ((K * op.Q : Nat) : Int)) = (((e * K + k) * op.Q + m : Nat) : Int) := by
    push_cast; ring
  rw [h1]
  refine ⟨by positivity, ?_⟩
  have : (e * K + k) * op.Q + m < op.ne * K * op.Q := enc_lt (enc_lt he hk) hm
  have h2 : op.ne * K * op.Q = K * op.ne * op.Q := by ring
  rw [h2] at this
  exact_mod_cast this

theorem createBlk_ok {op : Oper α} {bs : Nat} (hb : 0 < bs) (hQ : 0 < op.Q) (h1 : 0 < op.cIn) (h2 : 0 < op.cOut) :
    ∃ r, Restriction.createBlockedStrided op.ne op.Q bs ((op.cIn * op.cOut : Nat) : Int)
        ((op.cIn * op.cOut : Nat) * op.ne * op.Q : Int) (1, op.Q, (op.cIn * op.cOut : Nat) * op.Q) = .ok r ∧ AsmR op bs r := by
  have hK : 0 < op.cIn * op.cOut := Nat.mul_pos h1 h2
  have el : ((op.cIn * op.cOut : Nat) * op.ne * op.Q : Int) = ((op.cIn * op.cOut * op.ne * op.Q : Nat) : Int) := by push_cast; ring
  have es : ((op.cIn * op.cOut : Nat) * op.Q : Int) = ((op.cIn * op.cOut * op.Q : Nat) : Int) := by push_cast; ring
  rw [el, es]
  have e : ∃ r, Restriction.createBlockedStrided op.ne op.Q bs ((op.cIn * op.cOut : Nat) : Int)
        ((op.cIn * op.cOut * op.ne * op.Q : Nat) : Int) (1, op.Q, ((op.cIn * op.cOut * op.Q : Nat) : Int)) = .ok r ∧
        r.lSize = ((op.cIn * op.cOut * op.ne * op.Q : Nat) : Int) := by
    simp only [Restriction.createBlockedStrided]
    rw [Restriction.numBlocks_nat hb]
    simp only [Res.bind_ok]
    rw [Res.check_true (show (0 : Int) ≤ op.ne by omega), Res.check_true (show (0 : Int) < op.Q by omega),
      Res.check_true (show (0 : Int) < bs by omega), Res.check_true (show (0 : Int) < ((op.cIn * op.cOut : Nat) : Int) by exact_mod_cast hK),
      Res.check_true (by
        have : op.ne * op.Q * (op.cIn * op.cOut) ≤ op.cIn * op.cOut * op.ne * op.Q := le_of_eq (by ring)
        exact_mod_cast this)]
    exact ⟨_, rfl, rfl⟩
  obtain ⟨r, e1, e2⟩ := e
  obtain ⟨k1, k2⟩ := Restriction.createBlockedStrided_rep (α := α) e1 .plain (Or.inr (strides_range op rfl))
  exact ⟨r, e1, k1, k2, by rw [e2]; unfold Oper.alen; push_cast; ring⟩

theorem createBlk_err {op : Oper α} {bs : Nat} (hb : 0 < bs) (hQ : op.Q = 0) (k l : Int) (s : Int × Int × Int) :
    Restriction.createBlockedStrided op.ne op.Q bs k l s = .err .dimension := by
  simp only [Restriction.createBlockedStrided]
  rw [Restriction.numBlocks_nat hb]
  simp only [Res.bind_ok]
  rw [Res.check_true (show (0 : Int) ≤ op.ne by omega), Res.check_false (show ¬ (0 : Int) < op.Q by omega)]
  rfl

theorem createStr_ok {op : Oper α} (hQ : 0 < op.Q) (h1 : 0 < op.cIn) (h2 : 0 < op.cOut) :
    ∃ r, Restriction.createStrided op.ne op.Q ((op.cIn * op.cOut : Nat) : Int)
        ((op.cIn * op.cOut : Nat) * op.ne * op.Q : Int) (1, op.Q, (op.cIn * op.cOut : Nat) * op.Q) = .ok r := by
  have hK : 0 < op.cIn * op.cOut := Nat.mul_pos h1 h2
  simp only [Restriction.createStrided]
  rw [Res.check_true (show (0 : Int) ≤ op.ne by omega), Res.check_true (show (0 : Int) < op.Q by omega),
    Res.check_true (show (0 : Int) < ((op.cIn * op.cOut : Nat) : Int) by exact_mod_cast hK),
    Res.check_true (by
        have : op.ne * op.Q * (op.cIn * op.cOut) ≤ op.cIn * op.cOut * op.ne * op.Q := le_of_eq (by ring)
        exact_mod_cast this)]
  exact ⟨_, rfl⟩

/-! ## Assembly -/

/-- Data kept for assemblies. -/
structure BData (op : Oper α) (bs : Nat) (s : BSt α) : Prop where
  ad : AData op s.a
  work : s.hasL = true → s.a.arr.len = bs * op.Q * op.cIn * op.cOut
  rs : ∀ r, s.rs = some r → AsmR op bs r ∧ 0 < op.Q

/-- An assembly is going to be right. -/
def BSound (op : Oper α) (F : Nat → (Nat → Nat → α) → Nat → Nat → α) (bs : Nat) (s : BSt α) : Prop :=
  s.a.szIn = 0 ∨ op.cIn = 1 ∨ (s.a.st.impl.done = true ∧ Clean (op.wide F bs) s.a.st.impl.qIn)

/-- What an assembly does. -/
structure BAssembled (op : Oper α) (S : Meaning α) (F : Nat → (Nat → Nat → α) → Nat → Nat → α) (bs : Nat) (s s' : BSt α)
    (v : Buf α) : Prop where
  good : OptGood op S bs s'.o
  data : BData op bs s'
  done : s'.a.st.impl.done = true
  vecs : s'.a.st.vecs = s.a.st.vecs
  unl : (s.a.st.impl.done = true → Unlocked s.a.st) → Unlocked s'.a.st
  sin : s'.a.szIn = op.cIn
  sout : s'.a.szOut = op.cOut
  pin : 0 < op.cIn
  pout : 0 < op.cOut
  pq : 0 < op.Q
  notId : ¬ IdOnly op
  built : s'.a.built = s.a.built
  reuse : s'.a.reuse = s.a.reuse
  needs : s'.a.needs = s.a.needs
  ready : PassiveReady op s.a.st
  len : v.len = op.alen
  cols : BSound op F bs s → Clean (op.wide F bs) s'.a.st.impl.qIn ∧ (Pointwise op F → Columns op S s.a.st.L v)

theorem weights_passive {op : Oper α} {S : Meaning α} {bs : Nat} (h : OptOK op S bs) :
    ∀ i < op.nin, (op.inp i).mode = .weight → (op.inp i).vec ≠ .active := by
  intro i hi hw ha
  rw [(h.1.in_weight hi hw).1] at ha
  cases ha

theorem setupOpt_done {op : Oper α} {chk : Bool} {bs : Nat} {junk : Nat → Nat → α} {s : OSt α} (h : s.base.impl.done = true) :
    setupOpt op chk bs junk s = .ok s () := by
  unfold setupOpt
  simp only [M.bind_apply, getOB, Out.bind_ok, if_pos h, M.pure_apply]

theorem assembleCoreOpt_wp {op : Oper α} {S : Meaning α} {bs : Nat} (h : OptOK op S bs) (hsep : Separate op)
    (F : Nat → (Nat → Nat → α) → Nat → Nat → α) (chk : Bool) (junk : Nat → Nat → α) {s : BSt α}
    (hg : OptGood op S bs s.o) (hd : BData op bs s) {len : Option Nat} (hlen : ∀ n, len = some n → n = op.alen) {R : Prop}
    (hR : R → PassiveReady op s.a.st ∧ (s.a.st.impl.done = true → Unlocked s.a.st) ∧ 0 < op.cIn ∧ 0 < op.cOut ∧ 0 < op.Q ∧
      ¬ IdOnly op) :
    M.wp R (assembleCoreOpt op F chk bs junk len) s (fun s' v => BAssembled op S F bs s s' v)
      (fun s' _ => ¬ R ∧ OptGood op S bs s'.o ∧ BData op bs s' ∧ s'.a.built = s.a.built) := by
  have hwt := weights_passive h
  unfold assembleCoreOpt
  obtain ⟨t1, e1, k1, k2, k3, k4, k5⟩ := setupOpt_ok h chk junk hg
  have hp0 : 0 < bs := h.2.1
  -- errors
  have ogood : ∀ {t : OSt α}, t.br = t1.br → OInv (op.blk t1.br) S bs t → OptGood op S bs t := by
    intro t hb hi
    exact ⟨Or.inr ⟨hb ▸ k1, hb ▸ hi, hb ▸ k3⟩, hi.g.vz⟩
  have dok : ∀ s' : BSt α, s'.a.szOut = s.a.szOut → s'.a.built = s.a.built → s'.a.szIn = s.a.szIn → s'.hasL = s.hasL →
      s'.a.arr = s.a.arr → s'.rs = s.rs → BData op bs s' := by
    intro s' a1 a2 a3 a4 a5 a6
    exact ⟨⟨by rw [a3]; exact hd.ad.sin, by rw [a1]; exact hd.ad.sout, by rw [a1, a2, a3]; exact hd.ad.built⟩,
      by rw [a4, a5]; exact hd.work, by rw [a6]; exact hd.rs⟩
  rw [M.wp_bind]
  refine M.wp_of_eq_ok (liftO_ok e1) ?_
  rw [M.wp_bind]
  refine M.wp_of_eq_ok (s' := _) (a := _) rfl ?_
  set bop := op.blk t1.br with hbop
  set s1 : BSt α := { s with a := { s.a with st := t1.base }, br := t1.br, eBlk := t1.eBlk } with hs1
  have hs1o : s1.o = t1 := rfl
  rw [M.wp_bind]
  have hid : t1.base.impl.idRstr = false ↔ ¬ IdOnly op := by
    rw [k2.idR]
    unfold IdOnly
    show (op.isId && decide ((op.inp 0).mode = .none) && decide ((op.out 0).mode = .none)) = false ↔ _
    cases op.isId <;> simp
  refine M.wp_check (fun hc => ?_) (fun hc => ⟨fun r => hc (hid.2 (hR r).2.2.2.2.2), ogood rfl k2, dok _ rfl rfl rfl rfl rfl rfl, rfl⟩)
  have hnid : ¬ IdOnly op := hid.1 hc
  rw [M.wp_bind]
  refine liftO_wp (s := s1) (M.wp_mono (onB_wp (s := t1) (setupGen_wp k1.gctx k2.g (R := R) (inv := .null) (sk := true) (by
      intro r i hi hl
      obtain ⟨r', v, b1, b2, b3, b4⟩ := (hR r).1 i hi hl.1 (fun hh => hl.2 ⟨hh, rfl⟩)
      refine ⟨r', v, b1, ?_, ?_, ?_⟩
      · show (op.inp i).vec.ptr .null = _
        rw [b2]; rfl
      · rw [k4]; exact b3
      · show (t1.br r').lSize ≤ _
        rw [k3, k4]; exact b4) (fun r => k5 (hR r).2.1))) ?_ ?_)
  swap
  · rintro t2 c ⟨b, rfl, b1, j, b2⟩
    exact ⟨b1, ogood (t := { t1 with base := b }) rfl (k2.gloop b2), dok _ rfl rfl rfl rfl rfl rfl, rfl⟩
  rintro t2 _ ⟨b, rfl, H⟩
  have I1 : OInv bop S bs { t1 with base := b } := k2.gloop H
  have hvs : b.vecs = s.a.st.vecs := H.vecs.trans k4
  have hpas : PassiveReady op s.a.st := by
    intro i hi hw ha
    obtain ⟨r, v, h1, h2, h3, h4⟩ := H.ready i hi ⟨hw, fun hh => ha hh.1⟩
    refine ⟨r, v, h1, ?_, ?_, ?_⟩
    · have h2 : (op.inp i).vec.ptr .null = .vec v := h2
      match hvec : (op.inp i).vec with
      | .active => exact absurd hvec ha
      | .none => rw [hvec] at h2; cases h2
      | .vec u => rw [hvec] at h2; cases h2; rfl
    · rw [k4] at h3; exact h3
    · have h4 : (t1.br r).lSize ≤ _ := h4
      rw [k3, k4] at h4; exact h4
  have hL : b.L = s.a.st.L := by unfold St.L; rw [hvs]
  have hpre : BPre bop S bs b.L { t1 with base := b } := by
    refine ⟨I1.g.full, I1.ev, I1.ofull, I1.oskip, I1.oadd, ?_, ?_⟩
    · intro i hi hw
      have hf : first bop i < bop.nin := by have := first_le bop i; omega
      show (b.impl.eIn (first bop i)).len = _
      rw [H.len _ hf, eSizeOf_same (first_same bop i)]
    · intro i hi hw ha inv'
      obtain ⟨r, v, _, h2, _⟩ := hpas i hi hw ha
      have h2 : (bop.inp i).vec = .vec v := h2
      have := (H.gath i hi ⟨hw, fun hh => ha hh.1⟩ v (by rw [h2]; rfl)).2
      rw [h2]
      show GathB bop S bs i (b.impl.eIn (first bop i)) (b.vecs v).buf.val
      have k4' : t1.base.vecs = s.a.st.vecs := k4
      rw [hvs, ← k4']
      exact this
  rw [M.wp_bind]
  set s2 : BSt α := { s1 with a := { s1.a with st := b } } with hs2
  show M.wp R (liftAB (countIn bop)) s2 _ _
  refine liftAB_wp (s := s2) (M.wp_mono (countInB_wp (op := bop) (S := S) (bs := bs) hwt F (s := s2.a) I1.q (R := R) hd.ad.sin
    (fun r => (hR r).2.2.1)) ?_ ?_)
  swap
  · rintro s3 c ⟨b1, q, b2, b3⟩
    subst b2
    have I3 : OInv bop S bs (OSt.put { t1 with base := b } q b.impl.eOut t1.eBlk b.vecs) :=
      I1.put b3 I1.w I1.eb (Advances.refl _)
    exact ⟨b1, ogood (t := OSt.put { t1 with base := b } q b.impl.eOut t1.eBlk b.vecs) rfl I3, dok _ rfl rfl rfl rfl rfl rfl, rfl⟩
  rintro s3a _ ⟨hcin, q3, hs3, hq3, hcl3⟩
  have hcin : 0 < op.cIn := hcin
  have I3 : OInv bop S bs (OSt.put { t1 with base := b } q3 b.impl.eOut t1.eBlk b.vecs) :=
    I1.put hq3 I1.w I1.eb (Advances.refl _)
  have hgood3 : OptGood op S bs (OSt.put { t1 with base := b } q3 b.impl.eOut t1.eBlk b.vecs) := ogood rfl I3
  rw [M.wp_bind]
  subst hs3
  refine liftAB_wp (M.wp_mono (countOut_wp (op := bop) (s := { s2.a with st := b.put q3 b.impl.eOut, szIn := op.cIn }) (R := R) hd.ad.sout (fun r => (hR r).2.2.2.1)) ?_ ?_)
  swap
  · rintro s4 c ⟨b1, b2⟩
    subst b2
    refine ⟨b1, hgood3, ⟨⟨Or.inr ⟨rfl, hcin⟩, hd.ad.sout, fun v hv => ?_⟩, hd.work, hd.rs⟩, rfl⟩
    obtain ⟨a1, _, a3, a4, a5⟩ := hd.ad.built v hv
    exact ⟨a1, rfl, a3, a4, a5⟩
  rintro s4a _ ⟨hcout, hs4⟩
  have hcout : 0 < op.cOut := hcout
  subst hs4
  -- the state after counting
  generalize hs4 : ({ s2 with a := { s2.a with st := b.put q3 b.impl.eOut, szIn := op.cIn, szOut := op.cOut } } : BSt α) = s4
  show M.wp R _ ({ s2 with a := { s2.a with st := b.put q3 b.impl.eOut, szIn := op.cIn, szOut := op.cOut } } : BSt α) _ _
  rw [hs4]
  have hb4 : s4.a.built = s.a.built := by rw [← hs4]
  have d4 : ∀ s' : BSt α, s'.a.szIn = op.cIn → s'.a.szOut = op.cOut → s'.a.built = s.a.built → AData op s'.a := by
    intro s' a1 a2 a3
    refine ⟨Or.inr ⟨a1, hcin⟩, Or.inr ⟨a2, hcout⟩, fun v hv => ?_⟩
    rw [a3] at hv
    exact ⟨(hd.ad.built v hv).1, a1, a2, hcin, hcout⟩
  -- the work vector
  rw [M.wp_bind]
  have eL : ∃ arr : Buf α, arr.len = bs * op.Q * op.cIn * op.cOut ∧
      makeL bop bs s4 = .ok { s4 with hasL := true, a := { s4.a with arr := arr } } () := by
    by_cases hl : s4.hasL = true
    · refine ⟨s4.a.arr, ?_, ?_⟩
      · have := hd.work (by rw [← hs4] at hl; exact hl)
        rw [← hs4]; exact this
      · unfold makeL
        simp only [M.bind_apply, getBS, Out.bind_ok, if_pos hl, M.pure_apply]
        congr 1
        cases s4; cases hl; rfl
    · refine ⟨⟨bs * op.Q * op.cIn * op.cOut, fun _ => 0⟩, rfl, ?_⟩
      unfold makeL
      simp only [M.bind_apply, getBS, Out.bind_ok, if_neg hl, modBS]
      rw [← hs4]; rfl
  obtain ⟨arr, harr, eL⟩ := eL
  refine M.wp_of_eq_ok eL ?_
  rw [M.wp_bind]
  set s5 : BSt α := { s4 with hasL := true, a := { s4.a with arr := arr } } with hs5
  have hrs5 : s5.rs = s.rs := by rw [hs5, ← hs4]
  have hgood5 : OptGood op S bs s5.o := by
    have : s5.o = OSt.put { t1 with base := b } q3 b.impl.eOut t1.eBlk b.vecs := by rw [hs5, ← hs4]; rfl
    rw [this]; exact hgood3
  have hsz : s5.a.szIn = op.cIn ∧ s5.a.szOut = op.cOut := by rw [hs5, ← hs4]; exact ⟨rfl, rfl⟩
  have eR : 0 < op.Q → ∃ r, AsmR op bs r ∧ makeRs bop bs s5 = .ok { s5 with rs := some r } () := by
    intro hQ
    rcases hrs : s5.rs with _ | r
    · obtain ⟨r, c1, c2⟩ := createBlk_ok (op := op) hp0 hQ hcin hcout
      refine ⟨r, c2, ?_⟩
      unfold makeRs
      simp only [M.bind_apply, getBS, Out.bind_ok, hrs, hsz.1, hsz.2]
      show (M.lift (Restriction.createBlockedStrided op.ne op.Q bs ((op.cIn * op.cOut : Nat) : Int)
        ((op.cIn * op.cOut : Nat) * op.ne * op.Q : Int) (1, op.Q, (op.cIn * op.cOut : Nat) * op.Q)) s5).bind _ = _
      rw [c1]
      rfl
    · refine ⟨r, (hd.rs r (by rw [← hrs5, hrs])).1, ?_⟩
      unfold makeRs
      simp only [M.bind_apply, getBS, Out.bind_ok, hrs, M.pure_apply]
      congr 1
      rw [← hrs]
  by_cases hQ : 0 < op.Q
  swap
  · -- no quadrature points
    have hQ0 : op.Q = 0 := by omega
    have hrs : s5.rs = none := by
      rcases hrs : s5.rs with _ | r
      · rfl
      · exact absurd (hd.rs r (by rw [← hrs5, hrs])).2 hQ
    refine M.wp_of_eq_err (s' := s5) (a := .dimension) ?_ ⟨fun r => hQ (hR r).2.2.2.2.1, hgood5,
      ⟨d4 s5 hsz.1 hsz.2 hb4, fun _ => harr, by intro r hr; rw [hrs] at hr; cases hr⟩, hb4⟩
    unfold makeRs
    simp only [M.bind_apply, getBS, Out.bind_ok, hrs]
    rw [createBlk_err (op := bop) hp0 hQ0]
    rfl
  obtain ⟨r, hr, eR⟩ := eR hQ
  refine M.wp_of_eq_ok eR ?_
  rw [M.wp_bind]
  set s6 : BSt α := { s5 with rs := some r } with hs6
  have eO : makeOut bop len s6 = .ok { s6 with out := ⟨op.alen, fun _ => 0⟩ } () := by
    unfold makeOut
    simp only [M.bind_apply, getBS, Out.bind_ok]
    cases len with
    | none =>
      obtain ⟨r', c1⟩ := createStr_ok (op := op) hQ hcin hcout
      have z1 : s6.a.szIn = op.cIn := hsz.1
      have z2 : s6.a.szOut = op.cOut := hsz.2
      simp only [z1, z2, M.bind_apply]
      show (M.lift (Restriction.createStrided op.ne op.Q ((op.cIn * op.cOut : Nat) : Int)
        ((op.cIn * op.cOut : Nat) * op.ne * op.Q : Int) (1, op.Q, (op.cIn * op.cOut : Nat) * op.Q)) s6).bind _ = _
      rw [c1]
      show Out.ok ({ s6 with out := ⟨op.ne * op.Q * s6.a.szIn * s6.a.szOut, fun _ => 0⟩ } : BSt α) () = _
      rw [z1, z2]; rfl
    | some n =>
      have := hlen n rfl
      subst this
      rfl
  refine M.wp_of_eq_ok eO ?_
  rw [M.wp_bind]
  -- the blocks
  have hx0 : WInv bop S F b.L bs (s.a.szIn = 0 ∨ Clean (bop.wide F bs) b.impl.qIn) 0
      ⟨q3, t1.eBlk, arr, s6.a.off, ⟨op.alen, fun _ => 0⟩⟩ := by
    refine ⟨hq3, I1.eb, harr, rfl, hcl3, fun _ _ => ⟨?_, ?_⟩⟩
    · intro e _ hlt; rw [Nat.zero_mul] at hlt; omega
    · intro e _ _ k _ n _; rfl
  have hput : ({ s6 with out := ⟨op.alen, fun _ => 0⟩ } : BSt α) = s6.put ⟨q3, t1.eBlk, arr, s6.a.off, ⟨op.alen, fun _ => 0⟩⟩ := by
    rw [hs6, hs5, ← hs4]; rfl
  rw [hput]
  have hpre6 : BPre bop S bs b.L s6.o := by
    have : s6.o = OSt.put { t1 with base := b } q3 b.impl.eOut t1.eBlk b.vecs := by rw [hs6, hs5, ← hs4]; rfl
    rw [this]
    exact ⟨hpre.full, hpre.ev, hpre.ofull, hpre.oskip, hpre.oadd, hpre.len, hpre.gath⟩
  have hrb : AsmR bop bs r := ⟨hr.rep, hr.bs, hr.ls⟩
  obtain ⟨x, e7, hx1, hx2⟩ := assembleBlks_ok (op := bop) k1 hsep hwt hcout F junk hpre6 (r := r) rfl hrb hx0
  refine M.wp_of_eq_ok e7 ?_
  rw [M.wp_bind]
  have ho7 : (s6.put x).o = OSt.put { t1 with base := b } x.q b.impl.eOut x.eb b.vecs := by rw [hs6, hs5, ← hs4]; rfl
  have I7 : OInv bop S bs (OSt.put { t1 with base := b } x.q b.impl.eOut x.eb b.vecs) :=
    I1.put hx1.q I1.w hx1.eb (Advances.refl _)
  obtain ⟨rd, e8, hrd⟩ := restoreGen_ok (op := bop) (G := GathB bop S bs) (sk := true) (inv := .null)
    (s := (OSt.put { t1 with base := b } x.q b.impl.eOut x.eb b.vecs).base) (fun i hi hw => I1.g.full i hi hw)
  have e8' : liftO (onB (M.loop bop.nin (restoreIn bop true))) (s6.put x) = .ok { s6.put x with
      a := { (s6.put x).a with st := { (s6.put x).a.st with impl := { (s6.put x).a.st.impl with rd := rd } } } } () := by
    unfold liftO
    rw [ho7]
    unfold onB
    rw [e8]
    rw [hs6, hs5, ← hs4]
    rfl
  refine M.wp_of_eq_ok e8' ?_
  rw [M.wp_bind]
  refine M.wp_of_eq_ok (a := _) (s' := _) rfl ?_
  rw [M.wp_pure]
  have hrd1 : rd = t1.base.impl.rd := by
    funext k
    rw [hrd]
    show b.impl.rd k - _ = _
    rw [H.rd, Nat.add_sub_cancel]
  have hst : (s6.put x).a.st = b.put x.q b.impl.eOut := by rw [hs6, hs5, ← hs4]; rfl
  have I8 : OInv bop S bs { OSt.put { t1 with base := b } x.q b.impl.eOut x.eb b.vecs with
      base := { (b.put x.q b.impl.eOut) with impl := { (b.put x.q b.impl.eOut).impl with rd := rd } } } :=
    ⟨I7.done, I7.idR, I7.ev, I7.ofull, I7.oskip, I7.oadd, I7.q, I7.w, I7.eb, I7.g.adv (Advances.refl _) rfl rfl rfl rfl⟩
  refine ⟨?_, ?_, ?_, ?_, ?_, hsz.1, hsz.2, hcin, hcout, hQ, hnid, hb4, ?_, ?_, hpas, hx1.out, ?_⟩
  · have := ogood (t := { OSt.put { t1 with base := b } x.q b.impl.eOut x.eb b.vecs with
      base := { (b.put x.q b.impl.eOut) with impl := { (b.put x.q b.impl.eOut).impl with rd := rd } } }) rfl I8
    have he : ({ s6.put x with a := { (s6.put x).a with st := { (s6.put x).a.st with impl := { (s6.put x).a.st.impl with rd := rd } } } } : BSt α).o =
        { OSt.put { t1 with base := b } x.q b.impl.eOut x.eb b.vecs with
          base := { (b.put x.q b.impl.eOut) with impl := { (b.put x.q b.impl.eOut).impl with rd := rd } } } := by
      rw [hs6, hs5, ← hs4]; rfl
    rw [he]; exact this
  · exact ⟨d4 _ hsz.1 hsz.2 hb4, fun _ => hx1.arr, fun r' hr' => by cases hr'; exact ⟨hr, hQ⟩⟩
  · show (s6.put x).a.st.impl.done = true
    rw [hst]; exact I7.done
  · show (s6.put x).a.st.vecs = _
    rw [hst]; exact hvs
  · intro hu
    have := k5 hu
    refine ⟨fun k => ?_, fun k => ?_⟩
    · show rd k = 0
      rw [hrd1]; exact this.1 k
    · show (s6.put x).a.st.impl.wr k = false
      rw [hst]
      show b.impl.wr k = false
      rw [H.wr]; exact this.2 k
  · show s6.a.reuse = _; rw [hs6, hs5, ← hs4]
  · show s6.a.needs = _; rw [hs6, hs5, ← hs4]
  · intro hc'
    have hz : s.a.szIn = 0 ∨ Clean (bop.wide F bs) b.impl.qIn := by
      rcases hc' with hh | hh | ⟨hh, hcl⟩
      · exact Or.inl hh
      · exact Or.inr (Or.inr hh)
      · have hdn : s.o.base.impl.done = true := hh
        rw [setupOpt_done hdn] at e1; cases e1
        rw [H.q]; exact Or.inr hcl
    refine ⟨?_, fun hF => ?_⟩
    · show Clean (op.wide F bs) (s6.put x).a.st.impl.qIn
      rw [hst]; exact hx1.clean hz
    · have := hx2 hz hF
      rw [hL] at this
      exact this

theorem wp_same {σ β : Type} {R : Prop} {m m' : M σ β} {s : σ} {Q : σ → β → Prop} {E : σ → Err → Prop} (h : m s = m' s)
    (hw : M.wp R m' s Q E) : M.wp R m s Q E := by
  unfold M.wp at hw ⊢
  rw [h]
  exact hw

theorem buildOpt_wp {op : Oper α} {S : Meaning α} {bs : Nat} (h : OptOK op S bs) (hsep : Separate op)
    (F : Nat → (Nat → Nat → α) → Nat → Nat → α) (chk : Bool) (junk : Nat → Nat → α) {s : BSt α}
    (hg : OptGood op S bs s.o) (hd : BData op bs s) {R : Prop}
    (hR : R → Fresh s.a → PassiveReady op s.a.st ∧ (s.a.st.impl.done = true → Unlocked s.a.st) ∧ 0 < op.cIn ∧ 0 < op.cOut ∧
      0 < op.Q ∧ ¬ IdOnly op) :
    M.wp R (buildOrUpdateOpt op F chk bs junk) s
      (fun s' v => (Fresh s.a ∧ ∃ s1, BAssembled op S F bs s s1 v ∧ s' = { s1 with a := { s1.a with built := some v, needs := false } }) ∨
        (¬ Fresh s.a ∧ s.a.built = some v ∧ s' = { s with a := { s.a with needs := false } }))
      (fun s' _ => ¬ R ∧ OptGood op S bs s'.o ∧ BData op bs s') := by
  unfold buildOrUpdateOpt
  rw [M.wp_bind]
  have fin : ∀ len, (∀ n, len = some n → n = op.alen) → Fresh s.a → M.wp R (assembleCoreOpt op F chk bs junk len) s
      (fun s1 v => M.wp R (do
        liftAB (modA (fun s => { s with built := some v, needs := false }))
        pure v) s1 (fun s' v => (Fresh s.a ∧ ∃ s1, BAssembled op S F bs s s1 v ∧
          s' = { s1 with a := { s1.a with built := some v, needs := false } }) ∨
        (¬ Fresh s.a ∧ s.a.built = some v ∧ s' = { s with a := { s.a with needs := false } }))
          (fun s' _ => ¬ R ∧ OptGood op S bs s'.o ∧ BData op bs s'))
      (fun s' _ => ¬ R ∧ OptGood op S bs s'.o ∧ BData op bs s') := by
    intro len hlen hf
    refine M.wp_mono (assembleCoreOpt_wp h hsep F chk junk hg hd hlen (R := R) (fun r => hR r hf)) ?_
      (fun _ _ hh => ⟨hh.1, hh.2.1, hh.2.2.1⟩)
    intro s1 v hA
    exact Or.inl ⟨hf, s1, hA, rfl⟩
  obtain ⟨x, hb⟩ : ∃ x, s.a.built = x := ⟨_, rfl⟩
  cases x with
  | none =>
    have e : currentQFOpt op F chk bs junk s = assembleCoreOpt op F chk bs junk none s := by
      unfold currentQFOpt
      simp only [M.bind_apply, getBS, Out.bind_ok, hb]
      rfl
    exact wp_same e (fin none (by intro n hn; cases hn) (Or.inl hb))
  | some v =>
    by_cases hc : s.a.reuse = false ∨ s.a.needs = true
    · have e : currentQFOpt op F chk bs junk s = assembleCoreOpt op F chk bs junk (some v.len) s := by
        unfold currentQFOpt
        simp only [M.bind_apply, getBS, Out.bind_ok, hb, if_pos hc]
      refine wp_same e (fin _ ?_ (Or.inr hc))
      intro n hn
      cases hn
      exact (hd.ad.built v hb).1
    · have e : currentQFOpt op F chk bs junk s = .ok s v := by
        unfold currentQFOpt
        simp only [M.bind_apply, getBS, Out.bind_ok, hb, if_neg hc, M.pure_apply]
      refine M.wp_of_eq_ok e (Or.inr ⟨?_, hb, ?_⟩)
      · rintro (hh | hh)
        · rw [hb] at hh; cases hh
        · exact hc hh
      · rw [← hb]

/-- What a call of `BuildOrUpdate` leaves. -/
theorem BAssembled.kept {op : Oper α} {S : Meaning α} {F : Nat → (Nat → Nat → α) → Nat → Nat → α} {bs : Nat} {s s' : BSt α}
    {v : Buf α} (h : BAssembled op S F bs s s' v) :
    BData op bs { s' with a := { s'.a with built := some v, needs := false } } := by
  refine ⟨⟨Or.inr ⟨h.sin, h.pin⟩, Or.inr ⟨h.sout, h.pout⟩, fun u hu => ?_⟩, h.data.work, h.data.rs⟩
  cases hu
  exact ⟨h.len, h.sin, h.sout, h.pin, h.pout⟩

/-- States of histories with assemblies satisfy the invariant; without failing calls no E-vector is locked. -/
theorem BReach.good {op : Oper α} {S : Meaning α} {F : Nat → (Nat → Nat → α) → Nat → Nat → α} {chk : Bool} {bs : Nat}
    (h : OptOK op S bs) (hsep : Separate op) {fails : Prop} {s : BSt α} (hr : BReach op F chk bs fails s) :
    OptGood op S bs s.o ∧ BData op bs s ∧ (¬ fails → s.a.st.impl.done = true → Unlocked s.a.st) := by
  have keep : ∀ {s s' : BSt α}, BData op bs s → s'.a.szIn = s.a.szIn → s'.a.szOut = s.a.szOut → s'.a.built = s.a.built →
      s'.a.arr = s.a.arr → s'.hasL = s.hasL → s'.rs = s.rs → BData op bs s' := by
    intro s s' hd a1 a2 a3 a4 a5 a6
    exact ⟨⟨by rw [a1]; exact hd.ad.sin, by rw [a2]; exact hd.ad.sout, by rw [a1, a2, a3]; exact hd.ad.built⟩,
      by rw [a4, a5]; exact hd.work, by rw [a6]; exact hd.rs⟩
  induction hr with
  | start s hd hv h1 h2 h3 h4 h5 =>
    exact ⟨⟨Or.inl hd, hv⟩, ⟨⟨Or.inl h1, Or.inl h2, fun v hv => by rw [h3] at hv; cases hv⟩,
      fun hh => (by rw [h4] at hh; cases hh), fun r hh => (by rw [h5] at hh; cases hh)⟩, fun _ hh => by rw [hd] at hh; cases hh⟩
  | user _ ha ih => exact ⟨ih.1.adv ha rfl, keep ih.2.1 rfl rfl rfl rfl rfl rfl, fun hf hd => ih.2.2 hf hd⟩
  | applyAdd _ e ih =>
    obtain ⟨t, e', rfl⟩ := liftO_eq_ok e
    have := M.wp_ok (optAdd_wp h F chk _ ih.1 (R := False) (fun hh => hh.elim)) e'
    exact ⟨this.1, keep ih.2.1 rfl rfl rfl rfl rfl rfl, fun hf => this.2.1 (ih.2.2 hf)⟩
  | apply _ e ih =>
    obtain ⟨t, e', rfl⟩ := liftO_eq_ok e
    have := M.wp_ok (optApply_wp h F chk _ ih.1 (R := False) (fun hh => hh.elim)) e'
    exact ⟨this.1, keep ih.2.1 rfl rfl rfl rfl rfl rfl, fun hf => this.2.1 (ih.2.2 hf)⟩
  | assemble _ e ih =>
    have := M.wp_ok (assembleCoreOpt_wp h hsep F chk _ ih.1 ih.2.1 (by intro n hn; cases hn) (R := False) (fun hh => hh.elim)) e
    exact ⟨this.good, this.data, fun hf _ => this.unl (ih.2.2 hf)⟩
  | build _ e ih =>
    rcases M.wp_ok (buildOpt_wp h hsep F chk _ ih.1 ih.2.1 (R := False) (fun hh => hh.elim)) e with ⟨_, s1, hA, rfl⟩ | ⟨_, _, rfl⟩
    · exact ⟨hA.good, hA.kept, fun hf _ => hA.unl (ih.2.2 hf)⟩
    · exact ⟨ih.1, keep ih.2.1 rfl rfl rfl rfl rfl rfl, ih.2.2⟩
  | reuse _ e ih =>
    simp only [liftAB, setReuse, modA, Out.ok.injEq, and_true] at e
    subst e
    exact ⟨ih.1, keep ih.2.1 rfl rfl rfl rfl rfl rfl, ih.2.2⟩
  | needs _ e ih =>
    simp only [liftAB, setNeeds, modA, Out.ok.injEq, and_true] at e
    subst e
    exact ⟨ih.1, keep ih.2.1 rfl rfl rfl rfl rfl rfl, ih.2.2⟩
  | applyAddErr hf _ e ih =>
    obtain ⟨t, e', rfl⟩ := liftO_eq_err e
    exact ⟨(M.wp_err (optAdd_wp h F chk _ ih.1 (R := False) (fun hh => hh.elim)) e').2, keep ih.2.1 rfl rfl rfl rfl rfl rfl,
      fun hn => absurd hf hn⟩
  | applyErr hf _ e ih =>
    obtain ⟨t, e', rfl⟩ := liftO_eq_err e
    exact ⟨(M.wp_err (optApply_wp h F chk _ ih.1 (R := False) (fun hh => hh.elim)) e').2, keep ih.2.1 rfl rfl rfl rfl rfl rfl,
      fun hn => absurd hf hn⟩
  | assembleErr hf _ e ih =>
    have := M.wp_err (assembleCoreOpt_wp h hsep F chk _ ih.1 ih.2.1 (by intro n hn; cases hn) (R := False) (fun hh => hh.elim)) e
    exact ⟨this.2.1, this.2.2.1, fun hn => absurd hf hn⟩
  | buildErr hf _ e ih =>
    have := M.wp_err (buildOpt_wp h hsep F chk _ ih.1 ih.2.1 (R := False) (fun hh => hh.elim)) e
    exact ⟨this.2.1, this.2.2, fun hn => absurd hf hn⟩

/-- Without applications in between, the data of the active inputs stay zero. -/
theorem BNoApply.sound {op : Oper α} {S : Meaning α} {F : Nat → (Nat → Nat → α) → Nat → Nat → α} {chk : Bool} {bs : Nat}
    (h : OptOK op S bs) (hsep : Separate op) {s s' : BSt α} (hn : BNoApply op F chk bs s s')
    (hg : OptGood op S bs s.o) (hd : BData op bs s) (hs : BSound op F bs s) :
    OptGood op S bs s'.o ∧ BData op bs s' ∧ BSound op F bs s' := by
  have keep : ∀ {s s' : BSt α}, BData op bs s → s'.a.szIn = s.a.szIn → s'.a.szOut = s.a.szOut → s'.a.built = s.a.built →
      s'.a.arr = s.a.arr → s'.hasL = s.hasL → s'.rs = s.rs → BData op bs s' := by
    intro s s' hd a1 a2 a3 a4 a5 a6
    exact ⟨⟨by rw [a1]; exact hd.ad.sin, by rw [a2]; exact hd.ad.sout, by rw [a1, a2, a3]; exact hd.ad.built⟩,
      by rw [a4, a5]; exact hd.work, by rw [a6]; exact hd.rs⟩
  induction hn with
  | refl => exact ⟨hg, hd, hs⟩
  | user _ ha ih => exact ⟨ih.1.adv ha rfl, keep ih.2.1 rfl rfl rfl rfl rfl rfl, ih.2.2⟩
  | assemble _ e ih =>
    have := M.wp_ok (assembleCoreOpt_wp h hsep F chk _ ih.1 ih.2.1 (by intro n hn; cases hn) (R := False) (fun hh => hh.elim)) e
    exact ⟨this.good, this.data, Or.inr (Or.inr ⟨this.done, (this.cols ih.2.2).1⟩)⟩
  | build _ e ih =>
    rcases M.wp_ok (buildOpt_wp h hsep F chk _ ih.1 ih.2.1 (R := False) (fun hh => hh.elim)) e with ⟨_, s1, hA, rfl⟩ | ⟨_, _, rfl⟩
    · exact ⟨hA.good, hA.kept, Or.inr (Or.inr ⟨hA.done, (hA.cols ih.2.2).1⟩)⟩
    · exact ⟨ih.1, keep ih.2.1 rfl rfl rfl rfl rfl rfl, ih.2.2⟩
  | reuse _ e ih =>
    simp only [liftAB, setReuse, modA, Out.ok.injEq, and_true] at e
    subst e
    exact ⟨ih.1, keep ih.2.1 rfl rfl rfl rfl rfl rfl, ih.2.2⟩
  | needs _ e ih =>
    simp only [liftAB, setNeeds, modA, Out.ok.injEq, and_true] at e
    subst e
    exact ⟨ih.1, keep ih.2.1 rfl rfl rfl rfl rfl rfl, ih.2.2⟩

end Operator
end Verif
