import Verif.Context.Legal

/-!
# Properties of QFunction contexts (C29-C32)
-/

namespace Verif
namespace Context

set_option linter.unusedSectionVars false

variable {β : Type} [DecidableEq β]

/-! ## Specification -/

/-- Histories of calls that obey the rules, from creation. -/
def Hist (g : View) (w : World β) : Prop := Steps View.init World.init g w

/-- `CeedQFunctionContextGetDataRead` and `CeedQFunctionContextGetContextSize` together give `n` bytes `f`. -/
def Reads (w : World β) (n : Nat) (f : Nat → β) : Prop :=
  getSize w = .ok w n ∧ ∃ w' p b, getDataRead .host w = .ok w' (some p) ∧ w'.heap p = some b ∧ n ≤ b.len ∧
    ∀ i, i < n → f i = b.val i

/-- The state `CeedQFunctionContextGetState` reports. -/
def StateIs (w : World β) (s : Nat) : Prop := getState w = .ok w s

theorem Hist.inv {g : View} {w : World β} (h : Hist g w) : Inv g w := Steps.inv Inv.start h

theorem Steps.reach {g0 g : View} {w0 w : World β} (h0 : Reach g0 w0) (h : Steps g0 w0 g w) : Reach g w := by
  induction h with
  | refl => exact h0
  | ok _ _ he ih => exact ih.ok he
  | err _ _ he ih => exact ih.err he

theorem Hist.reach {g : View} {w : World β} (h : Hist g w) : Reach g w := Steps.reach .start h

theorem StateIs_iff {w : World β} {s : Nat} : StateIs w s ↔ ∃ x, w.ctx = some x ∧ x.state = s := by
  unfold StateIs getState
  simp only [M.bind_apply]
  cases h : w.ctx with
  | none => simp [getC_none h]
  | some x => simp [getC_some h]

theorem Reads_iff {w : World β} {n : Nat} {f : Nat → β} : Reads w n f ↔
    ∃ x p b, w.ctx = some x ∧ x.state % 2 = 0 ∧ x.data = some p ∧ x.size = n ∧ w.heap p = some b ∧ n ≤ b.len ∧
      ∀ i, i < n → f i = b.val i := by
  unfold Reads getSize
  simp only [M.bind_apply]
  cases h : w.ctx with
  | none => simp [getC_none h]
  | some x =>
    simp only [getC_some h, Out.bind_ok, M.pure_apply, Out.ok.injEq, true_and, getDataRead_eq h, if_true, Option.some.injEq]
    constructor
    · rintro ⟨hs, w', p, b, hg, hb, hl, hi⟩
      split_ifs at hg with e1 e2
      simp only [Out.ok.injEq] at hg
      obtain ⟨rfl, hp⟩ := hg
      exact ⟨x, p, b, rfl, e1, hp, hs, hb, hl, hi⟩
    · rintro ⟨_, p, b, rfl, h1, h2, h3, h4, h5, h6⟩
      refine ⟨h3, w.setCtx (some { x with readers := x.readers + 1 }), p, b, ?_, ?_, h5, h6⟩
      · rw [if_pos h1, if_pos (by simp [h2]), h2]
      · exact h4

/-! ## C29: fields are found under their names -/

/-- Every field registered in a history, in whatever order with whatever other calls, is found under its name with the
offset, type, size and count it was registered with. -/
theorem C29_retrieve {g : View} {w : World β} (h : Reach g w) (hx : w.ctx ≠ none) {name : String} {offset : Nat}
    {d : String} {type : FieldType} {num : Nat} (hl : labelOf name offset d type num ∈ g.regs) :
    getFieldLabel name w = .ok w (some ⟨name, d, type, type.bytes * num, num, offset⟩) := by
  obtain ⟨x, hx⟩ := Option.ne_none_iff_exists'.1 hx
  have hg := h.ginv
  rcases getFieldLabel_eq hx name with ⟨hn, -⟩ | ⟨l, hl', hn, he⟩
  · refine absurd ?_ hn
    rw [hg.labels x hx]
    exact List.mem_map.2 ⟨_, hl, rfl⟩
  · rw [he]
    rw [hg.labels x hx] at hl'
    have := List.inj_on_of_nodup_map hg.nodup hl' hl hn
    rw [this]
    rfl

/-- Registering a name again fails and changes nothing. -/
theorem C29_duplicate {g : View} {w : World β} (h : Reach g w) (hx : w.ctx ≠ none) {name : String}
    (hn : name ∈ g.regs.map Label.name) (offset : Nat) (descr : Option String) (type : FieldType) (num : Nat) :
    register name offset descr type num w = .err w .unsupported := by
  obtain ⟨x, hx⟩ := Option.ne_none_iff_exists'.1 hx
  rw [← h.ginv.labels x hx] at hn
  unfold register
  simp only [M.bind_apply, getC_some hx, Out.bind_ok, M.check_apply, fieldIndex_all]
  rw [if_neg (by simpa using hn)]
  rfl

/-- A name not registered so far is not found, and registering it succeeds; afterwards it is found and every other name is
looked up as before. -/
theorem C29_new {g : View} {w : World β} (h : Reach g w) (hx : w.ctx ≠ none) {name : String}
    (hn : name ∉ g.regs.map Label.name) (offset : Nat) (d : String) (type : FieldType) (num : Nat) :
    getFieldLabel name w = .ok w none ∧ ∃ w', register name offset (some d) type num w = .ok w' () ∧
      getFieldLabel name w' = .ok w' (some ⟨name, d, type, type.bytes * num, num, offset⟩) ∧
      ∀ other ≠ name, ∃ r, getFieldLabel other w = .ok w r ∧ getFieldLabel other w' = .ok w' r := by
  obtain ⟨x, hx'⟩ := Option.ne_none_iff_exists'.1 hx
  have hg := h.ginv
  have hl := hg.labels x hx'
  refine ⟨?_, ?_⟩
  · rcases getFieldLabel_eq hx' name with ⟨-, he⟩ | ⟨l, hl', hn', -⟩
    · exact he
    · rw [hl] at hl'
      exact absurd (List.mem_map.2 ⟨l, hl', hn'⟩) hn
  · have he0 := register_eq hx' (hg.cap x hx') name offset d type num
    rw [hl, if_neg hn] at he0
    obtain ⟨w', y, he, hy⟩ : ∃ w' y, register name offset (some d) type num w = .ok w' () ∧ w'.ctx = some y :=
      ⟨_, _, he0, rfl⟩
    have hr : Reach (g.after (.register name offset (some d) type num : Call β) .none) w' :=
      h.ok (c := .register name offset (some d) type num) (r := .none) (by
        simp only [exec, M.bind_apply, he, Out.bind_ok]; rfl)
    have hyl : y.labels = g.regs ++ [labelOf name offset d type num] := hr.ginv.labels y hy
    refine ⟨w', he, ?_, ?_⟩
    · exact C29_retrieve hr (by simp [hy]) (by simp [View.after])
    · intro other ho
      rcases getFieldLabel_eq hx' other with ⟨hn', he'⟩ | ⟨l, hl', hn', he'⟩
      · refine ⟨none, he', ?_⟩
        rcases getFieldLabel_eq hy other with ⟨-, he''⟩ | ⟨l, hl', hn'', -⟩
        · exact he''
        · refine absurd ?_ hn'
          simp only [hyl, List.mem_append, List.mem_singleton] at hl'
          rcases hl' with hl' | hl'
          · rw [hl]
            exact List.mem_map.2 ⟨l, hl', hn''⟩
          · rw [hl'] at hn''
            exact absurd hn''.symm ho
      · refine ⟨some l, he', ?_⟩
        rw [hl] at hl'
        have hmem : l ∈ (g.after (.register name offset (some d) type num : Call β) .none).regs := by
          simp [View.after, hl']
        rcases getFieldLabel_eq hy other with ⟨hn'', -⟩ | ⟨l', hl'', hn'', he''⟩
        · refine absurd ?_ hn''
          rw [hyl]
          exact List.mem_map.2 ⟨l, hmem, hn'⟩
        · rw [he'']
          rw [hyl] at hl''
          have := List.inj_on_of_nodup_map hr.ginv.nodup hl'' hmem (hn''.trans hn'.symm)
          rw [this]

/-- All labels are returned, in the order of registration. -/
theorem C29_all {g : View} {w : World β} (h : Reach g w) (hx : w.ctx ≠ none) :
    getAllFieldLabels w = .ok w g.regs := by
  obtain ⟨x, hx⟩ := Option.ne_none_iff_exists'.1 hx
  unfold getAllFieldLabels
  simp only [M.bind_apply, getC_some hx, Out.bind_ok, M.pure_apply, h.ginv.labels x hx]

/-- No call removes a registration. -/
theorem C29_kept {g g' : View} {w w' : World β} {c : Call β} (h : Reach g w)
    (hs : (∃ r, exec c w = .ok w' r ∧ g' = g.after c r) ∨ (∃ e, exec c w = .err w' e ∧ g' = g.failed c)) :
    Reach g' w' ∧ g.regs <+: g'.regs := by
  rcases hs with ⟨r, he, rfl⟩ | ⟨e, he, rfl⟩
  · refine ⟨h.ok he, ?_⟩
    unfold View.after
    split <;> simp
  · refine ⟨h.err he, ?_⟩
    unfold View.failed
    split <;> exact List.prefix_rfl

/-- Registration with the `NULL` description the documentation allows is undefined. -/
theorem C29_null_description_witness :
    register "a" 0 none .int32 1 (World.init : World Nat) = .ub := rfl

/-! ## C30: fields hold the values set -/

/-- What a program sees of a field: reading it hands out `num` values, stored in the bytes `f`. -/
def FieldReads (w : World β) (l : Label) (type : FieldType) (num : Nat) (f : Nat → β) : Prop :=
  ∃ w' p b, getField l type w = .ok w' (num, some p, l.offset) ∧ w'.heap p = some b ∧ l.offset + l.size ≤ b.len ∧
    ∀ i, i < l.size → f i = b.val (l.offset + i)

theorem getField_eq {w : World β} {x : Ctx} (h : w.ctx = some x) (l : Label) (type : FieldType) :
    getField l type w = if l.type = type then
        if x.state % 2 = 0 then
          if x.data.isSome then
            .ok (w.setCtx (some { x with readers := x.readers + 1 })) (l.size / type.bytes, x.data, l.offset)
          else .err w .backend
        else .err w .minor
      else .err w .unsupported := by
  unfold getField
  simp only [M.bind_apply, M.check_apply, getC_some h, Out.bind_ok]
  split_ifs with e0 e1 e2
  all_goals first
    | rfl
    | (simp only [Out.bind_ok, getDataRead_eq h, e1, e2, if_true]; rfl)
    | (simp only [Out.bind_ok, getDataRead_eq h, if_neg e1]; rfl)

/-- The facts about a history that the theorems below use. -/
theorem Hist.field {g : View} {w : World β} (h : Hist g w) {l : Label} {type : FieldType} {values : Buf β}
    (hl : Legal g (.setField l type values)) {w' : World β} (hs : setField l type values w = .ok w' ()) :
    ∃ x a b, w.ctx = some x ∧ x.data = some a ∧ w.heap a = some b ∧ x.size ≤ b.len ∧ l.offset + l.size ≤ x.size ∧
      x.state % 2 = 0 ∧ l.type = type ∧
      ((sameBytes b l.offset values l.size ∧ w' = w) ∨ (¬ sameBytes b l.offset values l.size ∧ x.readers = 0 ∧
        w' = (w.setBlk a (some (patch b l.offset values l.size))).setCtx (some { x with state := x.state + 2 }))) := by
  obtain ⟨hpos, hl1, hl2⟩ := hl
  rcases h.inv.ctx with ⟨-, x, hx, hi⟩ | ⟨hh, -⟩
  swap
  · omega
  cases hd : x.data with
  | none =>
    obtain ⟨e, he⟩ := setField_noData hx l type values hd
    rw [he] at hs
    cases hs
  | some a =>
    obtain ⟨-, b, hb, hbl⟩ := hi.data a hd
    have hsz : l.offset + l.size ≤ x.size := hl1 x.size (by rw [hi.size, hd]; rfl)
    rw [setField_eq hx l type values hd hb (hsz.trans hbl) hl2] at hs
    split_ifs at hs with e1 e2 e3 e4
    · simp only [Out.ok.injEq, and_true] at hs
      exact ⟨x, a, b, hx, hd, hb, hbl, hsz, e2, e1, .inl ⟨e3, hs.symm⟩⟩
    · simp only [Out.ok.injEq, and_true] at hs
      exact ⟨x, a, b, hx, hd, hb, hbl, hsz, e2, e1, .inr ⟨e3, e4, hs.symm⟩⟩

/-- Setting a field and reading it returns the values set, and their number. -/
theorem C30_set_get {g : View} {w w' : World β} (h : Hist g w) {name d : String} {offset num : Nat} {type : FieldType}
    {values : Buf β} (hl : Legal g (.setField (labelOf name offset d type num) type values))
    (hs : setField (labelOf name offset d type num) type values w = .ok w' ()) :
    FieldReads w' (labelOf name offset d type num) type num values.val := by
  have hnum : type.bytes * num / type.bytes = num := Nat.mul_div_cancel_left _ (by cases type <;> decide)
  obtain ⟨x, a, b, hx, hd, hb, hbl, hsz, he, ht, hcase⟩ := h.field hl hs
  rcases hcase with ⟨hsame, rfl⟩ | ⟨-, -, rfl⟩
  · refine ⟨w'.setCtx (some { x with readers := x.readers + 1 }), a, b, ?_, hb, hsz.trans hbl,
      fun i hi => (hsame i hi).symm⟩
    rw [getField_eq hx, if_pos ht, if_pos he, if_pos (by simp [hd]), hd]
    simp only [labelOf, hnum]
  · refine ⟨(w.setBlk a (some (patch b offset values (labelOf name offset d type num).size))).setCtx
      (some { x with state := x.state + 2, readers := x.readers + 1 }), a,
      patch b offset values (labelOf name offset d type num).size, ?_, ?_, ?_, ?_⟩
    · rw [getField_eq rfl, if_pos ht, if_pos (by simpa using he), if_pos (by simp [hd])]
      simp only [labelOf, hnum, hd]
      rfl
    · simp
    · exact hsz.trans hbl
    · intro i hi
      simp only [patch]
      rw [if_pos ⟨by simp [labelOf], by simpa [labelOf] using hi⟩]
      simp [labelOf]

/-- Setting a field leaves every field on disjoint bytes, and every byte outside the field, as it was. -/
theorem C30_disjoint {g : View} {w w' : World β} (h : Hist g w) {l : Label} {type : FieldType} {values : Buf β}
    (hl : Legal g (.setField l type values)) (hs : setField l type values w = .ok w' ()) {n : Nat} {f : Nat → β}
    (hr : Reads w n f) :
    ∃ f', Reads w' n f' ∧ (∀ i, i < n → i < l.offset ∨ l.offset + l.size ≤ i → f' i = f i) ∧
      ∀ m : Label, m.offset + m.size ≤ l.offset ∨ l.offset + l.size ≤ m.offset → ∀ t num v,
        FieldReads w m t num v → FieldReads w' m t num v := by
  obtain ⟨x, a, b, hx, hd, hb, hbl, hsz, he, ht, hcase⟩ := h.field hl hs
  obtain ⟨x', p, b', h1, h2, h3, h4, h5, h6, h7⟩ := Reads_iff.1 hr
  rw [hx] at h1
  cases h1
  rw [hd] at h3
  cases h3
  rw [hb] at h5
  cases h5
  rcases hcase with ⟨hsame, rfl⟩ | ⟨-, -, rfl⟩
  · exact ⟨f, hr, fun _ _ _ => rfl, fun _ _ _ _ _ hf => hf⟩
  · refine ⟨(patch b l.offset values l.size).val, Reads_iff.2 ⟨_, a, patch b l.offset values l.size, rfl,
      by simpa using he, hd, h4, by simp, h6, fun _ _ => rfl⟩, ?_, ?_⟩
    · intro i hi hout
      simp only [patch]
      rw [if_neg (by omega)]
      exact (h7 i hi).symm
    · rintro m hm t num v ⟨w1, q, bq, hf1, hf2, hf3, hf4⟩
      rw [getField_eq hx] at hf1
      split_ifs at hf1 with e1
      simp only [Out.ok.injEq, Prod.mk.injEq, hd, Option.some.injEq, and_true] at hf1
      obtain ⟨rfl, rfl, rfl⟩ := hf1
      simp only [setCtx_heap, hb, Option.some.injEq] at hf2
      subst hf2
      refine ⟨(w.setBlk a (some (patch b l.offset values l.size))).setCtx
        (some { x with state := x.state + 2, readers := x.readers + 1 }), a, patch b l.offset values l.size,
        ?_, by simp, hf3, ?_⟩
      · rw [getField_eq rfl, if_pos e1, if_pos (by simpa using he), if_pos (by simp [hd])]
        simp only [hd]
        rfl
      · intro i hi
        simp only [patch]
        rw [if_neg (by omega)]
        exact hf4 i hi

/-- A type mismatch is rejected without effect by setting, reading and restoring. -/
theorem C30_type_mismatch {w : World β} (hx : w.ctx ≠ none) {l : Label} {type : FieldType} (ht : l.type ≠ type)
    (values : Buf β) :
    setField l type values w = .err w .unsupported ∧ getField l type w = .err w .unsupported ∧
      restoreField l type w = .err w .unsupported := by
  obtain ⟨x, hx⟩ := Option.ne_none_iff_exists'.1 hx
  refine ⟨?_, ?_, ?_⟩
  · unfold setField
    simp only [M.bind_apply, getC_some hx, Out.bind_ok, M.check_apply, if_neg ht, Out.bind_err]
  · rw [getField_eq hx, if_neg ht]
  · unfold restoreField
    simp only [M.bind_apply, getC_some hx, Out.bind_ok, M.check_apply, if_neg ht, Out.bind_err]

/-- Setting a field of the right type succeeds whenever there is data and no access is outstanding. -/
theorem C30_succeeds {g : View} {w : World β} (h : Hist g w) {l : Label} {values : Buf β}
    (hl : Legal g (.setField l l.type values)) (hd : g.size ≠ none) (hw : g.writes = []) (hr : g.reads = []) :
    ∃ w', setField l l.type values w = .ok w' () := by
  obtain ⟨hpos, hl1, hl2⟩ := hl
  rcases h.inv.ctx with ⟨-, x, hx, hi⟩ | ⟨hh, -⟩
  swap
  · omega
  cases hdx : x.data with
  | none =>
    refine absurd ?_ hd
    rw [hi.size, hdx]; rfl
  | some a =>
    obtain ⟨-, b, hb, hbl⟩ := hi.data a hdx
    have hsz : l.offset + l.size ≤ x.size := hl1 x.size (by rw [hi.size, hdx]; rfl)
    rw [setField_eq hx l l.type values hdx hb (hsz.trans hbl) hl2, if_pos rfl,
      if_pos (by rw [h.inv.gen.writes x hx, hw]; rfl)]
    split_ifs with e1 e2
    · exact ⟨_, rfl⟩
    · exact ⟨_, rfl⟩
    · refine absurd ?_ e2
      rw [h.inv.gen.readers x hx, hr]; rfl

/-! ## C31: the state tells whether the contents changed -/

/-- Setting a field advances the state if and only if the stored bytes change. -/
theorem C31_bump {g : View} {w w' : World β} (h : Hist g w) {l : Label} {type : FieldType} {values : Buf β}
    (hl : Legal g (.setField l type values)) (hs : setField l type values w = .ok w' ()) {n s s' : Nat} {f : Nat → β}
    (hr : Reads w n f) (h1 : StateIs w s) (h2 : StateIs w' s') :
    (s' ≠ s ↔ ∃ i, i < l.size ∧ f (l.offset + i) ≠ values.val i) ∧ s ≤ s' := by
  obtain ⟨x, a, b, hx, hd, hb, hbl, hsz, he, ht, hcase⟩ := h.field hl hs
  obtain ⟨x', p, b', g1, g2, g3, g4, g5, g6, g7⟩ := Reads_iff.1 hr
  rw [hx] at g1
  cases g1
  rw [hd] at g3
  cases g3
  rw [hb] at g5
  cases g5
  obtain ⟨y, hy, rfl⟩ := StateIs_iff.1 h1
  obtain ⟨y', hy', rfl⟩ := StateIs_iff.1 h2
  rw [hx] at hy
  cases hy
  rcases hcase with ⟨hsame, rfl⟩ | ⟨hdiff, -, rfl⟩
  · rw [hx] at hy'
    cases hy'
    refine ⟨⟨fun hh => absurd rfl hh, ?_⟩, le_rfl⟩
    rintro ⟨i, hi, hne⟩
    refine absurd ?_ hne
    rw [g7 _ (by omega)]
    exact hsame i hi
  · simp only [setCtx_ctx, Option.some.injEq] at hy'
    subst hy'
    refine ⟨⟨fun _ => ?_, fun _ => by simp⟩, by simp⟩
    by_contra hno
    refine hdiff fun i hi => ?_
    by_contra hne
    refine hno ⟨i, hi, ?_⟩
    rw [g7 _ (by omega)]
    exact hne

/-- How two moments of a history relate: the state does not decrease, and when it is the same and the data can be read
later, it could be read before, with the same contents. -/
def Kept (w w' : World β) : Prop :=
  ∀ x', w'.ctx = some x' → ∃ x, w.ctx = some x ∧ x.state ≤ x'.state ∧
    (x.state = x'.state → x'.state % 2 = 0 → ∀ p, x'.data = some p →
      x.data = some p ∧ x.size = x'.size ∧ ∃ b b', w.heap p = some b ∧ w'.heap p = some b' ∧
        ∀ i, i < x'.size → b.val i = b'.val i)

theorem Kept.trans {w1 w2 w3 : World β} (h1 : Kept w1 w2) (h2 : Kept w2 w3) : Kept w1 w3 := by
  intro x3 hx3
  obtain ⟨x2, hx2, hle, hk⟩ := h2 x3 hx3
  obtain ⟨x1, hx1, hle', hk'⟩ := h1 x2 hx2
  refine ⟨x1, hx1, hle'.trans hle, fun heq he p hp => ?_⟩
  have h12 : x1.state = x2.state := by omega
  have h23 : x2.state = x3.state := by omega
  obtain ⟨hd, hs, b, b', hb, hb', hv⟩ := hk h23 he p hp
  obtain ⟨hd', hs', c, c', hc, hc', hv'⟩ := hk' h12 (by omega) p hd
  rw [hb] at hc'
  cases hc'
  exact ⟨hd', hs'.trans hs, c, b', hc, hb', fun i hi => (hv' i (by omega)).trans (hv i hi)⟩

/-- The context kept its data and the arrays are the same. -/
theorem Kept.same {g : View} {w w' : World β} (h : Inv g w) {x x' : Ctx} (hx : w.ctx = some x) (hx' : w'.ctx = some x')
    (hle : x.state ≤ x'.state) (hd : x.state = x'.state → x'.data = x.data ∧ x'.size = x.size)
    (hh : x.state = x'.state → x'.state % 2 = 0 → ∀ p, x.data = some p → w'.heap p = w.heap p) : Kept w w' := by
  intro y hy
  rw [hx'] at hy
  cases hy
  refine ⟨x, hx, hle, fun heq he p hp => ?_⟩
  rw [(hd heq).1] at hp
  rcases h.ctx with ⟨-, x1, hx1, hi⟩ | ⟨-, hn⟩
  swap
  · rw [hx] at hn; cases hn
  rw [hx] at hx1
  cases hx1
  obtain ⟨-, b, hb, -⟩ := hi.data p hp
  exact ⟨hp, (hd heq).2.symm, b, b, hb, by rw [hh heq he p hp]; exact hb, fun _ _ => rfl⟩

/-- The array holding the data is not one the program may free or write. -/
theorem data_not_mine {g : View} {w : World β} {x : Ctx} (hi : CInv g w x) {p a len : Nat} (hp : x.data = some p)
    (ha : g.mine a = some len) (hl : g.lent ≠ some a) : p ≠ a := by
  rintro rfl
  rcases (hi.data p hp).1 with ho | ho
  · rw [(hi.owned p ho).1] at ha; cases ha
  · exact hl (by rw [← hi.borrowed]; exact ho)

theorem kept_step {g : View} {w : World β} (h : Inv g w) {c : Call β} (hl : Legal g c) : (exec c w).Post (Kept w) := by
  have hdead : ∀ {w' : World β}, w'.ctx = none → Kept w w' := by
    intro w' hn x' hx'
    rw [hn] at hx'
    cases hx'
  cases hx : w.ctx with
  | none =>
    rcases exec_dead hx c with hu | ⟨b, rfl⟩ | ⟨a, rfl⟩ | ⟨a, i, v, rfl⟩
    · rw [hu]; trivial
    · exact hdead hx
    · rcases free_cases (some a) w with hf | ⟨hp, -⟩ | ⟨a', b, -, -, hf⟩
      · simp only [exec, M.bind_apply, hf]; trivial
      · simp at hp
      · simp only [exec, M.bind_apply, hf]
        exact hdead hx
    · rcases store_cases a i v w with hf | ⟨b, -, -, hf⟩
      · simp only [exec, M.bind_apply, hf]; trivial
      · simp only [exec, M.bind_apply, hf]
        exact hdead hx
  | some x =>
    obtain ⟨x1, hx1, hi⟩ : ∃ x, w.ctx = some x ∧ CInv g w x := by
      rcases h.ctx with ⟨-, x1, hx1, hi⟩ | ⟨-, hn⟩
      · exact ⟨x1, hx1, hi⟩
      · rw [hx] at hn; cases hn
    rw [hx] at hx1
    cases hx1
    have refl : Kept w w := Kept.same h hx hx le_rfl (fun _ => ⟨rfl, rfl⟩) fun _ _ _ _ => rfl
    have grow : ∀ {w' : World β} {x' : Ctx}, w'.ctx = some x' → x.state < x'.state → Kept w w' := by
      intro w' x' hx' hlt y hy
      rw [hx'] at hy
      cases hy
      exact ⟨x, hx, hlt.le, fun heq => by omega⟩
    have upd : ∀ y : Ctx, y.state = x.state → y.data = x.data → y.size = x.size → Kept w (w.setCtx (some y)) := by
      intro y h1 h2 h3
      exact Kept.same h hx rfl h1.ge (fun _ => ⟨h2, h3⟩) fun _ _ _ _ => rfl
    cases c with
    | malloc b =>
      refine Kept.same h hx (x' := x) hx le_rfl (fun _ => ⟨rfl, rfl⟩) fun _ _ p hp => ?_
      simp only [push_heap]
      rw [if_neg]
      rintro rfl
      obtain ⟨-, b', hb', -⟩ := hi.data _ hp
      rw [h.fresh w.next le_rfl] at hb'
      cases hb'
    | mfree a =>
      rcases free_cases (some a) w with hf | ⟨hp, -⟩ | ⟨a', b, ha', -, hf⟩
      · simp only [exec, M.bind_apply, hf]; trivial
      · simp at hp
      · cases ha'
        simp only [exec, M.bind_apply, hf]
        refine Kept.same h hx (x' := x) hx le_rfl (fun _ => ⟨rfl, rfl⟩) fun _ _ p hp => ?_
        obtain ⟨len, hlen⟩ := Option.ne_none_iff_exists'.1 hl.1
        simp only [setBlk_heap, if_neg (data_not_mine hi hp hlen hl.2)]
    | store a i v =>
      rcases store_cases a i v w with hf | ⟨b, -, -, hf⟩
      · simp only [exec, M.bind_apply, hf]; trivial
      · simp only [exec, M.bind_apply, hf]
        refine Kept.same h hx (x' := x) hx le_rfl (fun _ => ⟨rfl, rfl⟩) fun _ he p hp => ?_
        rcases hl with ⟨len, h1, -, h2⟩ | ⟨h1, -⟩
        · simp only [setBlk_heap, if_neg (data_not_mine hi hp h1 h2)]
        · rw [h.gen.writes x hx] at he
          rw [List.eq_nil_of_length_eq_zero he] at h1
          cases h1
    | reference =>
      simp only [exec, reference, M.bind_apply, getC_some hx, Out.bind_ok, putC_apply, M.pure_apply, Out.post_ok]
      exact upd _ rfl rfl rfl
    | setDataDestroy m =>
      simp only [exec, setDataDestroy, M.bind_apply, getC_some hx, Out.bind_ok, putC_apply, M.pure_apply, Out.post_ok]
      exact upd _ rfl rfl rfl
    | register name offset descr type num =>
      cases descr with
      | none => simp [Legal] at hl
      | some d =>
        simp only [exec, M.bind_apply, register_eq hx (h.gen.cap x hx)]
        by_cases hn : name ∈ x.labels.map Label.name
        · rw [if_pos hn]
          exact refl
        · rw [if_neg hn]
          exact upd _ rfl rfl rfl
    | getFieldLabel name =>
      rcases getFieldLabel_eq hx name with ⟨-, he⟩ | ⟨l, -, -, he⟩
      · simp only [exec, M.bind_apply, he]
        exact refl
      · simp only [exec, M.bind_apply, he]
        exact refl
    | getData mem =>
      simp only [exec, M.bind_apply, getData_eq hx]
      split_ifs
      · exact grow rfl (by simp)
      all_goals exact refl
    | getDataRead mem =>
      simp only [exec, M.bind_apply, getDataRead_eq hx]
      split_ifs
      · exact upd _ rfl rfl rfl
      all_goals exact refl
    | getField l type =>
      simp only [exec, M.bind_apply, getField_eq hx]
      split_ifs
      · exact upd _ rfl rfl rfl
      all_goals exact refl
    | restoreData =>
      simp only [exec, M.bind_apply, restoreData_eq hx]
      split_ifs
      · exact grow rfl (by simp)
      all_goals exact refl
    | restoreDataRead =>
      simp only [exec, M.bind_apply, restoreDataRead_eq hx]
      split_ifs
      · exact upd _ rfl rfl rfl
      all_goals exact refl
    | restoreField l type =>
      simp only [exec, restoreField, M.bind_apply, M.check_apply, getC_some hx, Out.bind_ok]
      split_ifs with e0
      swap
      · exact refl
      simp only [Out.bind_ok, restoreDataRead_eq hx]
      split_ifs with e1
      · exact upd _ rfl rfl rfl
      all_goals exact refl
    | takeData mem =>
      simp only [exec, M.bind_apply, takeData_eq hx]
      split_ifs
      · intro y hy
        cases hy
        exact ⟨x, hx, le_rfl, fun _ _ p hp => by cases hp⟩
      all_goals exact refl
    | setField l type values =>
      simp only [exec, M.bind_apply]
      cases hd : x.data with
      | none =>
        obtain ⟨e, he⟩ := setField_noData hx l type values hd
        rw [he]
        exact refl
      | some a =>
        obtain ⟨-, b, hb, hbl⟩ := hi.data a hd
        have hs : l.offset + l.size ≤ x.size := hl.2.1 x.size (by rw [hi.size, hd]; rfl)
        rw [setField_eq hx l type values hd hb (hs.trans hbl) hl.2.2]
        split_ifs
        · exact refl
        · exact grow rfl (by simp)
        all_goals exact refl
    | setData mem mode size src =>
      obtain ⟨-, hl1, rfl, a, len, rfl, hl2, hl3⟩ := hl
      obtain ⟨b, hb, hbl⟩ := h.mine a len hl2
      have hne : x.owned ≠ some a := by
        intro ho
        rw [(hi.owned a ho).1] at hl2
        cases hl2
      have ho : ∀ c, x.owned = some c → w.heap c ≠ none := by
        intro c hc
        obtain ⟨-, b', hb', -⟩ := hi.data c (hi.owned c hc).2
        rw [hb']; simp
      simp only [exec, M.bind_apply]
      rcases setData_eq hx mode hb (size := size) (by omega) hne ho with ⟨e, he, -⟩ | ⟨st, hst, hev, he⟩
      · rw [he]
        exact refl
      · rw [he]
        exact grow (setWorld_ctx ..) (by dsimp only; omega)
    | destroy =>
      have hfin : ∀ w1 : World β, ((finish x.owned w1).bind
          fun s _ => (pure Ret.none : M (World β) Ret) s).Post (Kept w) := by
        intro w1
        rcases finish_cases x.owned w1 with hu | ⟨w', hw', hc⟩
        · rw [hu]; trivial
        · rw [hw']; exact hdead hc
      simp only [exec, M.bind_apply, destroy_eq hx]
      by_cases h1 : 0 < x.refs - 1
      · rw [if_pos h1]
        exact upd _ rfl rfl rfl
      rw [if_neg h1]
      by_cases he : x.state % 2 = 0
      · rw [if_pos he]
        split
        · exact hfin _
        · split_ifs
          · exact hfin _
          all_goals exact upd _ rfl rfl rfl
      · rw [if_neg he]
        exact upd _ rfl rfl rfl

theorem Steps.kept {g0 g : View} {w0 w : World β} (h0 : Inv g0 w0) (h : Steps g0 w0 g w) : Kept w0 w := by
  induction h with
  | refl =>
    intro x hx
    refine ⟨x, hx, le_rfl, fun _ _ p hp => ?_⟩
    rcases h0.ctx with ⟨-, x1, hx1, hi⟩ | ⟨-, hn⟩
    · rw [hx] at hx1
      cases hx1
      obtain ⟨-, b, hb, -⟩ := hi.data p hp
      exact ⟨hp, rfl, b, b, hb, hb, fun _ _ => rfl⟩
    · rw [hx] at hn; cases hn
  | ok hs hl he ih =>
    have := kept_step (hs.inv h0) hl
    rw [he] at this
    exact ih.trans this
  | err hs hl he ih =>
    have := kept_step (hs.inv h0) hl
    rw [he] at this
    exact ih.trans this

/-- In a history that obeys the rules the state never decreases. -/
theorem C31_monotone {g g' : View} {w w' : World β} (h : Hist g w) (hs : Steps g w g' w') {s s' : Nat}
    (h1 : StateIs w s) (h2 : StateIs w' s') : s ≤ s' := by
  obtain ⟨x, hx, rfl⟩ := StateIs_iff.1 h1
  obtain ⟨x', hx', rfl⟩ := StateIs_iff.1 h2
  obtain ⟨y, hy, hle, -⟩ := hs.kept h.inv x' hx'
  rw [hx] at hy
  cases hy
  exact hle

/-- In a history that obeys the rules, equal states at two moments at which the data can be read imply the same data.
Missing from the full property: calls that ask for device memory, see `C31_device_witness`; and moments at which the data
cannot be read, see `C31_take_witness`. -/
theorem C31_equal_partial {g g' : View} {w w' : World β} (h : Hist g w) (hs : Steps g w g' w') {s n n' : Nat}
    {f f' : Nat → β} (h1 : StateIs w s) (h2 : StateIs w' s) (r1 : Reads w n f) (r2 : Reads w' n' f') :
    n = n' ∧ ∀ i, i < n → f i = f' i := by
  obtain ⟨x, p, b, a1, a2, a3, a4, a5, a6, a7⟩ := Reads_iff.1 r1
  obtain ⟨x', p', b', b1, b2, b3, b4, b5, b6, b7⟩ := Reads_iff.1 r2
  obtain ⟨y, hy, hys⟩ := StateIs_iff.1 h1
  obtain ⟨y', hy', hys'⟩ := StateIs_iff.1 h2
  rw [a1] at hy
  cases hy
  rw [b1] at hy'
  cases hy'
  obtain ⟨z, hz, hle, hk⟩ := hs.kept h.inv x' b1
  rw [a1] at hz
  cases hz
  obtain ⟨c1, c2, c, c', c3, c4, c5⟩ := hk (by omega) b2 p' b3
  rw [a3] at c1
  cases c1
  rw [a5] at c3
  cases c3
  rw [b5] at c4
  cases c4
  refine ⟨by omega, fun i hi => ?_⟩
  rw [a7 i hi, b7 i (by omega)]
  exact c5 i (by omega)

/-- A failed call that asks for device memory changes the size of the data without advancing the state. -/
theorem C31_device_witness :
    ∃ (w w' : World Nat) (g : View), Reach g w ∧
      setData .device .usePointer 1 (some 0) w = .err w' .backend ∧ StateIs w 2 ∧ StateIs w' 2 ∧
      Reads w 2 (fun i => i) ∧ Reads w' 1 (fun i => i) := by
  let b : Buf Nat := ⟨2, fun i => i⟩
  have r1 : Reach _ _ := Reach.start.ok (c := .malloc b) rfl
  have r2 : Reach _ _ := r1.ok (c := .setData .host .usePointer 2 (some 0)) rfl
  refine ⟨_, _, _, r2, rfl, rfl, rfl, ⟨rfl, _, 0, b, rfl, rfl, by decide, fun _ _ => rfl⟩,
    ⟨rfl, _, 0, b, rfl, rfl, by decide, fun _ _ => rfl⟩⟩

/-- Taking the data back does not advance the state. -/
theorem C31_take_witness :
    ∃ (w w' : World Nat) (g : View), Reach g w ∧ takeData .host w = .ok w' (some 0) ∧ StateIs w 2 ∧ StateIs w' 2 ∧
      Reads w 2 (fun i => i) ∧ ∀ n f, ¬ Reads w' n f := by
  let b : Buf Nat := ⟨2, fun i => i⟩
  have r1 : Reach _ _ := Reach.start.ok (c := .malloc b) rfl
  have r2 : Reach _ _ := r1.ok (c := .setData .host .usePointer 2 (some 0)) rfl
  refine ⟨_, _, _, r2, rfl, rfl, rfl, ⟨rfl, _, 0, b, rfl, rfl, by decide, fun _ _ => rfl⟩, ?_⟩
  rintro n f hr
  obtain ⟨x, p, b, a1, a2, a3, -⟩ := Reads_iff.1 hr
  cases a1
  cases a3

/-! ## C32: access to the data -/

/-- Whatever the program does, at most one write access is outstanding, and none together with a read access. -/
theorem C32_exclusive {g : View} {w : World β} (h : Reach g w) :
    g.writes.length ≤ 1 ∧ (g.writes ≠ [] → g.reads = []) := by
  refine ⟨?_, h.ginv.excl⟩
  cases hx : w.ctx with
  | none => rw [h.ginv.dead hx]; simp
  | some x =>
    rw [← h.ginv.writes x hx]
    omega

/-- When write access is granted. -/
theorem C32_write_iff {g : View} {w : World β} (h : Hist g w) (hp : 0 < g.handles) :
    (∃ w' p, getData .host w = .ok w' p) ↔ g.writes = [] ∧ g.reads = [] ∧ g.size ≠ none := by
  rcases h.inv.ctx with ⟨-, x, hx, hi⟩ | ⟨hh, -⟩
  swap
  · omega
  rw [getData_eq hx, hi.size, h.inv.gen.writes x hx, h.inv.gen.readers x hx]
  simp only [List.length_eq_zero_iff, if_true]
  cases x.data with
  | none => split_ifs <;> simp_all
  | some a => split_ifs <;> simp_all

/-- When read access is granted. -/
theorem C32_read_iff {g : View} {w : World β} (h : Hist g w) (hp : 0 < g.handles) :
    (∃ w' p, getDataRead .host w = .ok w' p) ↔ g.writes = [] ∧ g.size ≠ none := by
  rcases h.inv.ctx with ⟨-, x, hx, hi⟩ | ⟨hh, -⟩
  swap
  · omega
  rw [getDataRead_eq hx, hi.size, h.inv.gen.writes x hx]
  simp only [List.length_eq_zero_iff, if_true]
  cases x.data with
  | none => split_ifs <;> simp_all
  | some a => split_ifs <;> simp_all

/-- Calls that obey the rules have defined behaviour. -/
theorem C32_defined {g : View} {w : World β} (h : Hist g w) {c : Call β} (hl : Legal g c) : exec c w ≠ .ub := by
  have := h.inv.next hl
  intro hu
  rw [hu] at this
  exact this

/-- In a history that obeys the rules, pointers handed out for reading or writing and not restored point to an allocated
array at least as long as the data. Missing from the full property: the library does not reject replacing, taking back or
destroying data that is being read, see the witnesses below; the rules exclude it. -/
theorem C32_valid_partial {g : View} {w : World β} (h : Hist g w) (hp : 0 < g.handles) {p : Nat}
    (hr : p ∈ g.writes ∨ p ∈ g.reads) : ∃ b n, w.heap p = some b ∧ g.size = some n ∧ n ≤ b.len := by
  rcases h.inv.ctx with ⟨-, x, hx, hi⟩ | ⟨hh, -⟩
  swap
  · omega
  have hd := hi.ptrs p hr
  obtain ⟨-, b, hb, hbl⟩ := hi.data p hd
  exact ⟨b, x.size, hb, by rw [hi.size, hd]; rfl, hbl⟩

/-- While a pointer is handed out for reading, no call that obeys the rules changes the array it points to. Missing from
the full property: as in `C32_valid_partial`. -/
theorem C32_stable_partial {g : View} {w : World β} (h : Hist g w) (hp : 0 < g.handles) {p : Nat} (hr : p ∈ g.reads)
    {c : Call β} (hl : Legal g c) {w' : World β}
    (hs : (∃ r, exec c w = .ok w' r) ∨ ∃ e, exec c w = .err w' e) (hctx : w'.ctx ≠ none) : w'.heap p = w.heap p := by
  have hI := h.inv
  rcases hI.ctx with ⟨-, x, hx, hi⟩ | ⟨hh, -⟩
  swap
  · omega
  have hd := hi.ptrs p (.inr hr)
  have hne : g.reads ≠ [] := by rintro h0; rw [h0] at hr; cases hr
  have hpost : (exec c w).Post fun w' => w'.ctx ≠ none → w'.heap p = w.heap p := by
    have hrd : x.readers ≠ 0 := by
      rw [hI.gen.readers x hx]
      exact fun h0 => hne (List.eq_nil_of_length_eq_zero h0)
    cases c with
    | malloc b =>
      intro _
      simp only [push_heap]
      rw [if_neg]
      rintro rfl
      obtain ⟨-, b', hb', -⟩ := hi.data _ hd
      rw [hI.fresh w.next le_rfl] at hb'
      cases hb'
    | mfree a =>
      rcases free_cases (some a) w with hf | ⟨hp, -⟩ | ⟨a', b, ha', -, hf⟩
      · simp only [exec, M.bind_apply, hf]; trivial
      · simp at hp
      · cases ha'
        simp only [exec, M.bind_apply, hf]
        intro _
        obtain ⟨len, hlen⟩ := Option.ne_none_iff_exists'.1 hl.1
        simp only [setBlk_heap, if_neg (data_not_mine hi hd hlen hl.2)]
    | store a i v =>
      rcases store_cases a i v w with hf | ⟨b, -, -, hf⟩
      · simp only [exec, M.bind_apply, hf]; trivial
      · simp only [exec, M.bind_apply, hf]
        intro _
        rcases hl with ⟨len, h1, -, h2⟩ | ⟨h1, -⟩
        · simp only [setBlk_heap, if_neg (data_not_mine hi hd h1 h2)]
        · refine absurd (hI.gen.excl ?_) hne
          rintro h0
          rw [h0] at h1
          cases h1
    | reference =>
      simp only [exec, reference, M.bind_apply, getC_some hx, Out.bind_ok, putC_apply, M.pure_apply, Out.post_ok]
      intro _; rfl
    | setDataDestroy m =>
      simp only [exec, setDataDestroy, M.bind_apply, getC_some hx, Out.bind_ok, putC_apply, M.pure_apply, Out.post_ok]
      intro _; rfl
    | register name offset descr type num =>
      cases descr with
      | none => simp [Legal] at hl
      | some d =>
        simp only [exec, M.bind_apply, register_eq hx (hI.gen.cap x hx)]
        by_cases hn : name ∈ x.labels.map Label.name
        · rw [if_pos hn]
          intro _; rfl
        · rw [if_neg hn]
          intro _; rfl
    | getFieldLabel name =>
      rcases getFieldLabel_eq hx name with ⟨-, he⟩ | ⟨l, -, -, he⟩
      · simp only [exec, M.bind_apply, he]
        intro _; rfl
      · simp only [exec, M.bind_apply, he]
        intro _; rfl
    | getData mem =>
      simp only [exec, M.bind_apply, getData_eq hx]
      split_ifs <;> (intro _; rfl)
    | getDataRead mem =>
      simp only [exec, M.bind_apply, getDataRead_eq hx]
      split_ifs <;> (intro _; rfl)
    | getField l type =>
      simp only [exec, M.bind_apply, getField_eq hx]
      split_ifs <;> (intro _; rfl)
    | restoreData =>
      simp only [exec, M.bind_apply, restoreData_eq hx]
      split_ifs <;> (intro _; rfl)
    | restoreDataRead =>
      simp only [exec, M.bind_apply, restoreDataRead_eq hx]
      split_ifs <;> (intro _; rfl)
    | restoreField l type =>
      simp only [exec, restoreField, M.bind_apply, M.check_apply, getC_some hx, Out.bind_ok]
      split_ifs with e0
      swap
      · intro _; rfl
      simp only [Out.bind_ok, restoreDataRead_eq hx]
      split_ifs <;> (intro _; rfl)
    | takeData mem => exact absurd hl.2 hne
    | setField l type values =>
      simp only [exec, M.bind_apply]
      obtain ⟨-, b, hb, hbl⟩ := hi.data p hd
      have hs : l.offset + l.size ≤ x.size := hl.2.1 x.size (by rw [hi.size, hd]; rfl)
      rw [setField_eq hx l type values hd hb (hs.trans hbl) hl.2.2]
      simp only [hrd, if_false]
      split_ifs <;> (intro _; rfl)
    | setData mem mode size src => exact absurd hl.2.1 hne
    | destroy =>
      have hfin : ∀ w1 : World β, ((finish x.owned w1).bind
          fun s _ => (pure Ret.none : M (World β) Ret) s).Post fun w' => w'.ctx ≠ none → w'.heap p = w.heap p := by
        intro w1
        rcases finish_cases x.owned w1 with hu | ⟨w', hw', hc⟩
        · rw [hu]; trivial
        · rw [hw']; exact fun h0 => absurd hc h0
      simp only [exec, M.bind_apply, destroy_eq hx]
      by_cases h1 : 0 < x.refs - 1
      · rw [if_pos h1]
        intro _; rfl
      rw [if_neg h1]
      by_cases he : x.state % 2 = 0
      · rw [if_pos he]
        split
        · exact hfin _
        · split_ifs
          · exact hfin _
          all_goals (intro _; rfl)
      · rw [if_neg he]
        intro _; rfl
  rcases hs with ⟨r, hs⟩ | ⟨e, hs⟩
  · rw [hs] at hpost; exact hpost hctx
  · rw [hs] at hpost; exact hpost hctx

/-- A context with a copy of one byte, and readers. -/
def exW (f : Nat → Nat) (readers : Nat) : World Nat :=
  ⟨fun c => if c = 1 then some ⟨1, f⟩ else if c = 0 then some ⟨1, f⟩ else none, 2,
    some ⟨1, 2, readers, 1, some 1, none, some 1, [], 0, none⟩⟩

/-- Setting data frees the array a reader still holds. -/
theorem C32_set_witness :
    ∃ (w w' : World Nat) (g : View), Reach g w ∧ g.reads = [1] ∧
      setData .host .copyValues 1 (some 0) w = .ok w' () ∧ w.heap 1 ≠ none ∧ w'.heap 1 = none := by
  let b : Buf Nat := ⟨1, fun _ => 5⟩
  have r1 : Reach _ _ := Reach.start.ok (c := .malloc b) rfl
  have r2 : Reach _ (exW (fun _ => 5) 0) := r1.ok (c := .setData .host .copyValues 1 (some 0)) (r := .none) rfl
  have r3 : Reach _ (exW (fun _ => 5) 1) := r2.ok (c := .getDataRead .host) (r := .ptr (some 1)) rfl
  exact ⟨_, _, _, r3, rfl, rfl, by simp [exW], rfl⟩

/-- Destroying the context frees the array a reader still holds. -/
theorem C32_destroy_witness :
    ∃ (w w' : World Nat) (g : View), Reach g w ∧ g.reads = [1] ∧ destroy w = .ok w' () ∧ w.heap 1 ≠ none ∧
      w'.heap 1 = none := by
  let b : Buf Nat := ⟨1, fun _ => 5⟩
  have r1 : Reach _ _ := Reach.start.ok (c := .malloc b) rfl
  have r2 : Reach _ (exW (fun _ => 5) 0) := r1.ok (c := .setData .host .copyValues 1 (some 0)) (r := .none) rfl
  have r3 : Reach _ (exW (fun _ => 5) 1) := r2.ok (c := .getDataRead .host) (r := .ptr (some 1)) rfl
  exact ⟨_, _, _, r3, rfl, rfl, by simp [exW], rfl⟩

/-- Data can be taken back, and then freed by its owner, while a reader holds it. -/
theorem C32_take_witness :
    ∃ (w w' : World Nat) (g : View), Reach g w ∧ g.reads = [0] ∧ takeData .host w = .ok w' (some 0) := by
  let b : Buf Nat := ⟨1, fun _ => 5⟩
  have r1 : Reach _ _ := Reach.start.ok (c := .malloc b) rfl
  have r2 : Reach _ _ := r1.ok (c := .setData .host .usePointer 1 (some 0)) rfl
  have r3 : Reach _ _ := r2.ok (c := .getDataRead .host) rfl
  exact ⟨_, _, _, r3, rfl, rfl⟩

/-! ## The hypotheses can be met -/

/-- Fields in five bytes: one byte, then an integer. -/
def exFlag : Label := labelOf "flag" 0 "a flag" .bool 1
def exCount : Label := labelOf "count" 1 "a count" .int32 1

/-- A context that holds a copy of five bytes, with the two fields. -/
def exC (f : Nat → Nat) : World Nat :=
  ⟨fun c => if c = 1 then some ⟨5, f⟩ else if c = 0 then some ⟨5, f⟩ else none, 2,
    some ⟨1, 2, 0, 5, some 1, none, some 1, [exFlag, exCount], 2, none⟩⟩

/-- What the program knows of it. -/
def exG : View := ⟨1, false, fun c => if c = 0 then some 5 else none, none, [], [], [exFlag, exCount], some 5⟩

theorem exC_hist (f : Nat → Nat) : Hist exG (exC f) := by
  have r0 : Steps View.init (World.init : World Nat) View.init World.init := .refl
  have r1 := r0.ok (c := .register "flag" 0 (some "a flag") .bool 1) (r := .none)
    (w' := ⟨fun _ => none, 0, some ⟨1, 0, 0, 0, none, none, none, [exFlag], 1, none⟩⟩) ⟨by decide, rfl⟩ rfl
  have r2 := r1.ok (c := .register "count" 1 (some "a count") .int32 1) (r := .none)
    (w' := ⟨fun _ => none, 0, some ⟨1, 0, 0, 0, none, none, none, [exFlag, exCount], 2, none⟩⟩) ⟨by decide, rfl⟩ (by
      simp only [exec, M.bind_apply]
      rw [register_eq rfl (by decide), if_neg (by decide)]
      rfl)
  have r3 := r2.ok (c := .malloc ⟨5, f⟩) (r := .ptr (some 0))
    (w' := ⟨fun c => if c = 0 then some ⟨5, f⟩ else none, 1,
      some ⟨1, 0, 0, 0, none, none, none, [exFlag, exCount], 2, none⟩⟩) trivial rfl
  have r4 := r3.ok (c := .setData .host .copyValues 5 (some 0)) (r := .none) (w' := exC f)
    ⟨Nat.one_pos, rfl, rfl, 0, 5, rfl, rfl, le_rfl⟩ rfl
  have : exG = View.after (View.after (View.after (View.after View.init
      (.register "flag" 0 (some "a flag") .bool 1 : Call Nat) .none)
      (.register "count" 1 (some "a count") .int32 1 : Call Nat) .none) (.malloc ⟨5, f⟩) (.ptr (some 0)))
      (.setData .host .copyValues 5 (some 0) : Call Nat) .none := by
    simp [exG, View.after, View.init, exFlag, exCount]
  rw [Hist, this]
  exact r4

/-- C29: both fields are found, a third name is not. -/
example (f : Nat → Nat) : getFieldLabel "count" (exC f) = .ok (exC f) (some exCount) ∧
    getFieldLabel "flag" (exC f) = .ok (exC f) (some exFlag) ∧ getFieldLabel "other" (exC f) = .ok (exC f) none :=
  ⟨C29_retrieve (exC_hist f).reach (by simp [exC]) (List.mem_cons_of_mem _ (List.mem_cons_self ..)),
    C29_retrieve (exC_hist f).reach (by simp [exC]) (List.mem_cons_self ..),
    (C29_new (exC_hist f).reach (by simp [exC]) (by simp [exG, exFlag, exCount, labelOf]) 0 "" .bool 1).1⟩

/-- C30, C31: setting the second field succeeds; the values differ, so that the state advances. -/
example (f : Nat → Nat) : ∃ w', setField exCount .int32 ⟨4, fun i => f (i + 1) + 1⟩ (exC f) = .ok w' () ∧
    FieldReads w' exCount .int32 1 (fun i => f (i + 1) + 1) := by
  have hl : Legal exG (.setField exCount exCount.type ⟨4, fun i => f (i + 1) + 1⟩) :=
    ⟨by decide, by rintro s ⟨⟩; decide, le_refl 4⟩
  obtain ⟨w', hw⟩ := C30_succeeds (exC_hist f) hl (by simp [exG]) rfl rfl
  exact ⟨w', hw, C30_set_get (exC_hist f) hl hw⟩

example (f : Nat → Nat) : Reads (exC f) 5 f ∧ StateIs (exC f) 2 :=
  ⟨⟨rfl, _, 1, ⟨5, f⟩, rfl, rfl, le_rfl, fun _ _ => rfl⟩, rfl⟩

/-- C32: with a reader the same history continues. -/
example (f : Nat → Nat) : ∃ g w, Hist g (w : World Nat) ∧ 1 ∈ g.reads ∧ 0 < g.handles :=
  ⟨_, _, (exC_hist f).ok (c := .getDataRead .host) (r := .ptr (some 1)) (by simp [Legal, exG]) rfl,
    List.mem_cons_self .., by decide⟩

/-- A field that does not lie inside the data is accepted, and setting it accesses memory outside the data. -/
theorem C30_outside_witness (f : Nat → Nat) : ∃ w', register "last" 4 (some "") .int32 1 (exC f) = .ok w' () ∧
    getFieldLabel "last" w' = .ok w' (some (labelOf "last" 4 "" .int32 1)) ∧
    setField (labelOf "last" 4 "" .int32 1) .int32 ⟨4, fun _ => 0⟩ w' = .ub := by
  obtain ⟨-, w', h1, h2, -⟩ := C29_new (exC_hist f).reach (by simp [exC]) (name := "last")
    (by simp [exG, exFlag, exCount, labelOf]) 4 "" .int32 1
  refine ⟨w', h1, h2, ?_⟩
  rw [register_eq (x := ⟨1, 2, 0, 5, some 1, none, some 1, [exFlag, exCount], 2, none⟩) rfl (by decide),
    if_neg (by simp [exFlag, exCount, labelOf])] at h1
  simp only [Out.ok.injEq, and_true] at h1
  subst h1
  rfl

end Context
end Verif
