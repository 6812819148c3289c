import Verif.Operator.Labels

/-!
# Fields of QFunction contexts through operators: histories and lemmas
-/

namespace Verif
namespace Labels

open Context (World Ctx Label FieldType View)

/-! ## Specification -/

section
variable {β : Type}

/-- The context of an operator without sub-operators. -/
def ctxOf (s : St β) (o : Nat) : Option Nat :=
  match (s.ops o).qf with
  | some q => s.qctx q
  | none => none

/-- Context `c` has a field called `name`, described by `l`. -/
def HasField (s : St β) (c : Nat) (name : String) (l : Label) : Prop :=
  ∃ x, (s.ctxs c).ctx = some x ∧ l ∈ x.labels ∧ l.name = name

variable [DecidableEq β]

/-- Calls of a program. -/
inductive Call (β : Type)
  | ctx (c : Nat) (call : Context.Call β)
  | addSub (c o : Nat) (fits : Bool)
  | getLabel (o : Nat) (name : String)
  | set (o : Nat) (p : Option LPtr) (type : FieldType) (values : Buf β)
  | getRead (o : Nat) (p : Option LPtr) (type : FieldType)
  | restoreRead (o : Nat) (p : Option LPtr) (type : FieldType)

/-- Carry out a call. -/
def exec : Call β → M (St β) Unit
  | .ctx c call => do let _ ← onCtx c (Context.exec call); pure ()
  | .addSub c o fits => addSub c o fits
  | .getLabel o name => do let _ ← getLabel o name; pure ()
  | .set o p type values => setLabel o p type values
  | .getRead o p type => do let _ ← getRead o p type; pure ()
  | .restoreRead o p type => do let _ ← restoreRead o p type; pure ()

/-- Histories of calls, failed ones included. `CeedQFunctionSetContext` is left out: contexts are set before. -/
inductive Runs (s0 : St β) : St β → Prop
  | refl : Runs s0 s0
  | ok {s s' : St β} {c : Call β} : Runs s0 s → exec c s = .ok s' () → Runs s0 s'
  | err {s s' : St β} {c : Call β} {e : Err} : Runs s0 s → exec c s = .err s' e → Runs s0 s'

/-- Before labels and sub-operators: contexts after any histories of their own, operators as created. -/
structure Start (s : St β) : Prop where
  ctx : ∀ c, ∃ g, Context.Reach g (s.ctxs c)
  comp : ∀ o, (s.ops o).comp = true → (s.ops o).qf = none
  single : ∀ o, (s.ops o).comp = false → (s.ops o).qf ≠ none
  subs : ∀ o, (s.ops o).subs = []
  labels : ∀ o, (s.ops o).labels = []
  groups : s.groups = []
  flags : ∀ p, s.fromOp p = false

/-- States reached from the start. -/
def Reached (s : St β) : Prop := ∃ s0, Start s0 ∧ Runs s0 s

/-! ## Lemmas -/

omit [DecidableEq β] in
/-- A field of a context, with its place in the table. -/
def look (s : St β) (c : Nat) (name : String) : Option (Nat × Label) :=
  match (s.ctxs c).ctx with
  | none => none
  | some x =>
    if Context.fieldIndex x.labels name x.labels.length = -1 then none
    else (x.labels[(Context.fieldIndex x.labels name x.labels.length).toNat]?).map fun l =>
      ((Context.fieldIndex x.labels name x.labels.length).toNat, l)

omit [DecidableEq β] in
theorem look_some {s : St β} {c j : Nat} {name : String} {l : Label} (h : look s c name = some (j, l)) :
    ∃ x, (s.ctxs c).ctx = some x ∧ x.labels[j]? = some l ∧ l.name = name := by
  unfold look at h
  cases hx : (s.ctxs c).ctx with
  | none => rw [hx] at h; cases h
  | some x =>
    rw [hx] at h
    dsimp only at h
    split_ifs at h with hi
    obtain ⟨i, l', e1, e2, e3⟩ := Context.fieldIndex_some hi
    rw [e1, Int.toNat_natCast, e2] at h
    simp only [Option.map_some, Option.some.injEq, Prod.mk.injEq] at h
    obtain ⟨rfl, rfl⟩ := h
    exact ⟨x, rfl, e2, e3⟩

omit [DecidableEq β] in
theorem look_none {s : St β} {c : Nat} {name : String} (h : look s c name = none) (l : Label) : ¬ HasField s c name l := by
  rintro ⟨x, hx, hl, hn⟩
  unfold look at h
  rw [hx] at h
  dsimp only at h
  split_ifs at h with hi
  · exact (Context.fieldIndex_all.1 hi) (List.mem_map.2 ⟨l, hl, hn⟩)
  · obtain ⟨i, l', e1, e2, e3⟩ := Context.fieldIndex_some hi
    rw [e1, Int.toNat_natCast, e2] at h
    cases h

omit [DecidableEq β] in
theorem findField_ok {s s' : St β} {c : Nat} {name : String} {r : Option (Nat × Label)}
    (h : findField c name s = .ok s' r) : s' = s ∧ r = look s c name ∧ (s.ctxs c).ctx ≠ none := by
  unfold findField at h
  unfold look
  cases hx : (s.ctxs c).ctx with
  | none => rw [hx] at h; cases h
  | some x =>
    rw [hx] at h
    dsimp only at h ⊢
    split_ifs at h ⊢ with hi
    · simp only [Out.ok.injEq] at h
      exact ⟨h.1.symm, h.2.symm, by simp⟩
    · cases hl : x.labels[(Context.fieldIndex x.labels name x.labels.length).toNat]? with
      | none => rw [hl] at h; cases h
      | some l =>
        rw [hl] at h
        simp only [Out.ok.injEq] at h
        exact ⟨h.1.symm, h.2.symm, by simp⟩

omit [DecidableEq β] in
theorem findField_eq {s : St β} {c : Nat} (name : String) (h : (s.ctxs c).ctx ≠ none) :
    findField c name s = .ok s (look s c name) := by
  unfold findField look
  obtain ⟨x, hx⟩ := Option.ne_none_iff_exists'.1 h
  rw [hx]
  dsimp only
  split_ifs with hi
  · rfl
  · obtain ⟨i, l', e1, e2, e3⟩ := Context.fieldIndex_some hi
    rw [e1, Int.toNat_natCast, e2]
    rfl

omit [DecidableEq β] in
theorem getContext_ok {s s' : St β} {o : Nat} {r : Option Nat} (h : getContext o s = .ok s' r) :
    s' = s ∧ r = ctxOf s o ∧ (s.ops o).comp = false := by
  unfold getContext at h
  simp only [getS, M.bind_apply, Out.bind_ok, M.check_apply] at h
  split_ifs at h with hc
  · simp only [Out.bind_ok] at h
    unfold ctxOf
    cases hq : (s.ops o).qf with
    | none => rw [hq] at h; cases h
    | some q =>
      rw [hq] at h
      simp only [M.pure_apply, Out.ok.injEq] at h
      exact ⟨h.1.symm, h.2.symm, hc⟩
  · cases h

omit [DecidableEq β] in
theorem getContext_eq {s : St β} {o : Nat} (hc : (s.ops o).comp = false) (hq : (s.ops o).qf ≠ none) :
    getContext o s = .ok s (ctxOf s o) := by
  unfold getContext ctxOf
  obtain ⟨q, hq⟩ := Option.ne_none_iff_exists'.1 hq
  simp only [getS, M.bind_apply, Out.bind_ok, M.check_apply, if_pos hc, hq]
  rfl

omit [DecidableEq β] in
theorem getContext_err {s s' : St β} {o : Nat} {e : Err} (h : getContext o s = .err s' e) : s' = s := by
  unfold getContext at h
  simp only [getS, M.bind_apply, Out.bind_ok, M.check_apply] at h
  split_ifs at h with hc
  · simp only [Out.bind_ok] at h
    cases hq : (s.ops o).qf with
    | none => rw [hq] at h; cases h
    | some q => rw [hq] at h; cases h
  · simp only [Out.bind_err, Out.err.injEq] at h
    exact h.1.symm

/-! ### What is never lost -/

/-- What every history keeps: registered fields, kinds and contexts of operators, sub-operators, labels. -/
structure Later (s s' : St β) : Prop where
  reg : ∀ c x', (s'.ctxs c).ctx = some x' → ∃ x, (s.ctxs c).ctx = some x ∧ x.labels <+: x'.labels
  qctx : s'.qctx = s.qctx
  comp : ∀ o, (s'.ops o).comp = (s.ops o).comp
  qf : ∀ o, (s'.ops o).qf = (s.ops o).qf
  subs : ∀ o, (s.ops o).subs <+: (s'.ops o).subs
  labels : ∀ o, (s.ops o).labels <+: (s'.ops o).labels
  groups : s.groups <+: s'.groups
  flags : ∀ p, s.fromOp p = true → s'.fromOp p = true

omit [DecidableEq β] in
theorem Later.refl (s : St β) : Later s s :=
  ⟨fun _ x h => ⟨x, h, List.prefix_rfl⟩, rfl, fun _ => rfl, fun _ => rfl, fun _ => List.prefix_rfl,
    fun _ => List.prefix_rfl, List.prefix_rfl, fun _ h => h⟩

omit [DecidableEq β] in
theorem Later.trans {s s' s'' : St β} (h : Later s s') (h' : Later s' s'') : Later s s'' :=
  ⟨fun c x hx => by
      obtain ⟨y, hy, e⟩ := h'.reg c x hx
      obtain ⟨z, hz, e'⟩ := h.reg c y hy
      exact ⟨z, hz, e'.trans e⟩, h'.qctx.trans h.qctx, fun o => (h'.comp o).trans (h.comp o), fun o => (h'.qf o).trans (h.qf o),
    fun o => (h.subs o).trans (h'.subs o), fun o => (h.labels o).trans (h'.labels o), h.groups.trans h'.groups,
    fun p e => h'.flags p (h.flags p e)⟩

omit [DecidableEq β] in
theorem Later.ctxOf {s s' : St β} (h : Later s s') (o : Nat) : ctxOf s' o = ctxOf s o := by
  unfold Labels.ctxOf; rw [h.qf o, h.qctx]

omit [DecidableEq β] in
/-- A field keeps its place. -/
theorem Later.deref {s s' : St β} (h : Later s s') {c j : Nat} {x x' : Ctx} {l : Label} (hx : (s.ctxs c).ctx = some x)
    (hx' : (s'.ctxs c).ctx = some x') (hl : x.labels[j]? = some l) : x'.labels[j]? = some l := by
  obtain ⟨y, hy, e⟩ := h.reg c x' hx'
  rw [hx] at hy; cases hy
  obtain ⟨t, ht⟩ := e
  rw [← ht]
  rw [List.getElem?_append_left (List.getElem?_eq_some_iff.1 hl).1]
  exact hl

/-- What the operators have: what histories preserve. -/
structure Inv (s : St β) : Prop where
  ctx : ∀ c, ∃ g, Context.Reach g (s.ctxs c)
  comp : ∀ o, (s.ops o).comp = true → (s.ops o).qf = none
  single : ∀ o, (s.ops o).comp = false → (s.ops o).qf ≠ none
  flat : ∀ o, (s.ops o).comp = false → (s.ops o).subs = []
  flags : ∀ o, ∀ p ∈ (s.ops o).labels, s.fromOp p = true
  gflags : ∀ k, k < s.groups.length → s.fromOp (.group k) = true
  gvalid : ∀ o k, LPtr.group k ∈ (s.ops o).labels → (s.ops o).comp = true ∧ ∃ g, s.groups[k]? = some g ∧
    g.subs.length ≤ (s.ops o).subs.length
  fvalid : ∀ o c j, LPtr.field c j ∈ (s.ops o).labels → (s.ops o).comp = false ∧ ctxOf s o = some c
  owner : ∀ o o' k, LPtr.group k ∈ (s.ops o).labels → LPtr.group k ∈ (s.ops o').labels → o = o'
  cap : ∀ o, (s.ops o).labels.length ≤ (s.ops o).maxLabels

theorem Start.inv {s : St β} (h : Start s) : Inv s :=
  ⟨h.ctx, h.comp, h.single, fun o _ => h.subs o, fun o p hp => (by rw [h.labels o] at hp; cases hp),
    fun k hk => (by rw [h.groups] at hk; cases hk), fun o k hp => (by rw [h.labels o] at hp; cases hp),
    fun o c j hp => (by rw [h.labels o] at hp; cases hp), fun o o' k hp => (by rw [h.labels o] at hp; cases hp),
    fun o => (by rw [h.labels o]; exact Nat.zero_le _)⟩

/-- A step that keeps the invariant. -/
def Good (s s' : St β) : Prop := Inv s' ∧ Later s s'

theorem Good.refl {s : St β} (h : Inv s) : Good s s := ⟨h, Later.refl s⟩

theorem Good.trans {s s' s'' : St β} (h : Good s s') (h' : Good s' s'') : Good s s'' := ⟨h'.1, h.2.trans h'.2⟩

/-- A context after a call of its own. -/
theorem Good.ctx {s : St β} (h : Inv s) {c : Nat} {call : Context.Call β} {w' : World β}
    (hs : (∃ r, Context.exec call (s.ctxs c) = .ok w' r) ∨ ∃ e, Context.exec call (s.ctxs c) = .err w' e) :
    Good s { s with ctxs := Function.update s.ctxs c w' } := by
  obtain ⟨g, hg⟩ := h.ctx c
  have key : ∃ g', Context.Reach g' w' ∧ g.regs <+: g'.regs := by
    rcases hs with ⟨r, hr⟩ | ⟨e, he⟩
    · exact ⟨_, Context.C29_kept hg (Or.inl ⟨r, hr, rfl⟩)⟩
    · exact ⟨_, Context.C29_kept hg (Or.inr ⟨e, he, rfl⟩)⟩
  obtain ⟨g', hg', hp⟩ := key
  have hdead : (s.ctxs c).ctx = none → w'.ctx = none := by
    intro hn
    rcases Context.exec_dead hn call with hu | ⟨b, rfl⟩ | ⟨a, rfl⟩ | ⟨a, i, v, rfl⟩
    · rcases hs with ⟨r, hr⟩ | ⟨e, he⟩
      · rw [hu] at hr; cases hr
      · rw [hu] at he; cases he
    · rcases hs with ⟨r, hr⟩ | ⟨e, he⟩
      · simp only [Context.exec, Context.alloc, M.bind_apply, Out.bind_ok, M.pure_apply, Out.ok.injEq] at hr
        rw [← hr.1]; exact hn
      · cases he
    · simp only [Context.exec, M.bind_apply] at hs
      rcases Context.free_cases (some a) (s.ctxs c) with hu | ⟨hu, -⟩ | ⟨a, b, -, -, hu⟩
      · rw [hu] at hs; rcases hs with ⟨r, hr⟩ | ⟨e, he⟩
        · cases hr
        · cases he
      · cases hu
      · rw [hu] at hs; rcases hs with ⟨r, hr⟩ | ⟨e, he⟩
        · simp only [Out.bind_ok, M.pure_apply, Out.ok.injEq] at hr
          rw [← hr.1]; exact hn
        · cases he
    · simp only [Context.exec, M.bind_apply] at hs
      rcases Context.store_cases a i v (s.ctxs c) with hu | ⟨b, -, -, hu⟩
      · rw [hu] at hs; rcases hs with ⟨r, hr⟩ | ⟨e, he⟩
        · cases hr
        · cases he
      · rw [hu] at hs; rcases hs with ⟨r, hr⟩ | ⟨e, he⟩
        · simp only [Out.bind_ok, M.pure_apply, Out.ok.injEq] at hr
          rw [← hr.1]; exact hn
        · cases he
  refine ⟨⟨fun d => ?_, h.comp, h.single, h.flat, h.flags, h.gflags, h.gvalid, h.fvalid, h.owner, h.cap⟩,
    ⟨fun d x' hx' => ?_, rfl, fun _ => rfl, fun _ => rfl, fun _ => List.prefix_rfl, fun _ => List.prefix_rfl,
      List.prefix_rfl, fun _ h => h⟩⟩
  · by_cases hd : d = c
    · subst hd; exact ⟨g', by simpa using hg'⟩
    · simpa [Function.update_of_ne hd] using h.ctx d
  · by_cases hd : d = c
    · subst hd
      simp only [Function.update_self] at hx'
      cases hx : (s.ctxs d).ctx with
      | none => rw [hdead hx] at hx'; cases hx'
      | some x =>
        refine ⟨x, rfl, ?_⟩
        rw [hg.ginv.labels x hx, hg'.ginv.labels x' hx']
        exact hp
    · simp only [Function.update_of_ne hd] at hx'
      exact ⟨x', hx', List.prefix_rfl⟩

/-! ### The calls -/

/-- `Good` for whatever state a call leaves behind. -/
def Keeps {γ : Type} (m : M (St β) γ) (s : St β) : Prop := (m s).Post (Good s)

theorem Keeps.bind {γ δ : Type} {m : M (St β) γ} {f : γ → M (St β) δ} {s : St β} (h : Keeps m s)
    (hf : ∀ s' a, m s = .ok s' a → Good s s' → Keeps (f a) s') : Keeps (m >>= f) s := by
  unfold Keeps at *
  rw [M.bind_apply]
  cases hm : m s with
  | ok s' a =>
    rw [hm] at h
    have h2 := hf s' a hm h
    simp only [Out.bind_ok]
    cases hm2 : f a s' with
    | ok s'' b => rw [hm2] at h2; exact Good.trans h h2
    | err s'' e => rw [hm2] at h2; exact Good.trans h h2
    | ub => trivial
  | err s' e => rw [hm] at h; exact h
  | ub => trivial

theorem Keeps.pure {γ : Type} {a : γ} {s : St β} (h : Inv s) : Keeps (Pure.pure a : M (St β) γ) s := Good.refl h
theorem Keeps.undef {γ : Type} {s : St β} : Keeps (M.undef : M (St β) γ) s := trivial
theorem Keeps.fail {γ : Type} {s : St β} {e : Err} (h : Inv s) : Keeps (M.fail e : M (St β) γ) s := Good.refl h
theorem Keeps.check {P : Prop} [Decidable P] {s : St β} {e : Err} (h : Inv s) : Keeps (M.check P e : M (St β) Unit) s := by
  unfold Keeps
  rw [M.check_apply]
  split_ifs
  · exact Good.refl h
  · exact Good.refl h
theorem Keeps.getS {s : St β} (h : Inv s) : Keeps (Labels.getS : M (St β) (St β)) s := Good.refl h

/-- A call that leaves the state alone. -/
theorem Keeps.same {γ : Type} {m : M (St β) γ} {s : St β} (h : Inv s) (h1 : ∀ s' a, m s = .ok s' a → s' = s)
    (h2 : ∀ s' e, m s = .err s' e → s' = s) : Keeps m s := by
  unfold Keeps
  cases hm : m s with
  | ok s' a => obtain rfl := h1 s' a hm; exact Good.refl h
  | err s' e => obtain rfl := h2 s' e hm; exact Good.refl h
  | ub => trivial

theorem Keeps.getContext {s : St β} {o : Nat} (h : Inv s) : Keeps (getContext o) s :=
  Keeps.same h (fun _ _ e => (getContext_ok e).1) fun _ _ e => getContext_err e

theorem Keeps.findField {s : St β} {c : Nat} {name : String} (h : Inv s) : Keeps (findField c name) s :=
  Keeps.same h (fun _ _ e => (findField_ok e).1) fun s' e he => by
    unfold Labels.findField at he
    split at he
    · cases he
    · split_ifs at he
      split at he <;> cases he

omit [DecidableEq β] in
theorem deref_ok {s s' : St β} {c j : Nat} {l : Label} (h : deref c j s = .ok s' l) :
    s' = s ∧ ∃ x, (s.ctxs c).ctx = some x ∧ x.labels[j]? = some l := by
  unfold deref at h
  cases hx : (s.ctxs c).ctx with
  | none => rw [hx] at h; cases h
  | some x =>
    rw [hx] at h
    dsimp only at h
    cases hl : x.labels[j]? with
    | none => rw [hl] at h; cases h
    | some l' => rw [hl] at h; simp only [Out.ok.injEq] at h; exact ⟨h.1.symm, x, rfl, h.2 ▸ hl⟩

omit [DecidableEq β] in
theorem deref_err {s s' : St β} {c j : Nat} {e : Err} : deref c j s ≠ .err s' e := by
  intro h
  unfold deref at h
  split at h
  · cases h
  · split at h <;> cases h

theorem Keeps.deref {s : St β} {c j : Nat} (h : Inv s) : Keeps (deref c j) s :=
  Keeps.same h (fun _ _ e => (deref_ok e).1) fun _ _ e => absurd e deref_err

theorem Keeps.readLabel {s : St β} {p : LPtr} (h : Inv s) : Keeps (readLabel p) s := by
  cases p with
  | field c j => exact Keeps.deref h
  | group k =>
    refine Keeps.same h (fun s' a e => ?_) fun s' a e => ?_
    all_goals
      unfold Labels.readLabel at e
      dsimp only at e
      split at e <;> cases e
    rfl

theorem Keeps.numSub {s : St β} {p : LPtr} (h : Inv s) : Keeps (numSub p) s := by
  cases p with
  | field c j => exact Good.refl h
  | group k =>
    refine Keeps.same h (fun s' a e => ?_) fun s' a e => ?_
    all_goals
      unfold Labels.numSub at e
      dsimp only at e
      split at e <;> cases e
    rfl

theorem Keeps.subLabels {s : St β} {p : LPtr} (h : Inv s) : Keeps (subLabels p) s := by
  cases p with
  | field c j => exact Good.refl h
  | group k =>
    refine Keeps.same h (fun s' a e => ?_) fun s' a e => ?_
    all_goals
      unfold Labels.subLabels at e
      dsimp only at e
      split at e <;> cases e
    rfl

theorem Keeps.onCtx {γ : Type} {s : St β} {c : Nat} {m : M (World β) γ} (h : Inv s) (call : Context.Call β)
    (h1 : ∀ w a, m (s.ctxs c) = .ok w a → ∃ r, Context.exec call (s.ctxs c) = .ok w r)
    (h2 : ∀ w e, m (s.ctxs c) = .err w e → ∃ e, Context.exec call (s.ctxs c) = .err w e) : Keeps (onCtx c m) s := by
  unfold Keeps Labels.onCtx
  cases hm : m (s.ctxs c) with
  | ok w a => exact Good.ctx h (Or.inl (h1 w a hm))
  | err w e => exact Good.ctx h (Or.inr (h2 w e hm))
  | ub => trivial

theorem Keeps.setField {s : St β} {c : Nat} {l : Label} {type : FieldType} {values : Buf β} (h : Inv s) :
    Keeps (Labels.onCtx c (Context.setField l type values)) s := by
  refine Keeps.onCtx h (.setField l type values) (fun w a e => ⟨.none, ?_⟩) fun w e he => ⟨e, ?_⟩
  · simp only [Context.exec, M.bind_apply, e, Out.bind_ok, M.pure_apply]
  · simp only [Context.exec, M.bind_apply, he, Out.bind_err]

theorem Keeps.getField {s : St β} {c : Nat} {l : Label} {type : FieldType} (h : Inv s) :
    Keeps (Labels.onCtx c (Context.getField l type)) s := by
  refine Keeps.onCtx h (.getField l type) (fun w a e => ⟨.field a.1 a.2.1 a.2.2, ?_⟩) fun w e he => ⟨e, ?_⟩
  · simp only [Context.exec, M.bind_apply, e, Out.bind_ok, M.pure_apply]
  · simp only [Context.exec, M.bind_apply, he, Out.bind_err]

theorem Keeps.restoreField {s : St β} {c : Nat} {l : Label} {type : FieldType} (h : Inv s) :
    Keeps (Labels.onCtx c (Context.restoreField l type)) s := by
  refine Keeps.onCtx h (.restoreField l type) (fun w a e => ⟨.none, ?_⟩) fun w e he => ⟨e, ?_⟩
  · simp only [Context.exec, M.bind_apply, e, Out.bind_ok, M.pure_apply]
  · simp only [Context.exec, M.bind_apply, he, Out.bind_err]

/-- Marking an operator. -/
theorem Keeps.mark {s : St β} {o : Nat} (h : Inv s) : Keeps (modOp o fun x => { x with update := true }) s := by
  have hop : ∀ o', Function.update s.ops o { s.ops o with update := true } o' =
      { s.ops o' with update := (Function.update s.ops o { s.ops o with update := true } o').update } := by
    intro o'
    by_cases e : o' = o
    · subst e; simp
    · simp [Function.update_of_ne e]
  have hc : ∀ o', (Function.update s.ops o { s.ops o with update := true } o').comp = (s.ops o').comp := fun o' => by rw [hop]
  have hq : ∀ o', (Function.update s.ops o { s.ops o with update := true } o').qf = (s.ops o').qf := fun o' => by rw [hop]
  have hs : ∀ o', (Function.update s.ops o { s.ops o with update := true } o').subs = (s.ops o').subs := fun o' => by rw [hop]
  have hl : ∀ o', (Function.update s.ops o { s.ops o with update := true } o').labels = (s.ops o').labels :=
    fun o' => by rw [hop]
  have hm : ∀ o', (Function.update s.ops o { s.ops o with update := true } o').maxLabels = (s.ops o').maxLabels :=
    fun o' => by rw [hop]
  refine ⟨⟨h.ctx, fun o' => ?_, fun o' => ?_, fun o' => ?_, fun o' => ?_, h.gflags, fun o' => ?_, fun o' => ?_, fun o' o'' => ?_, fun o' => ?_⟩,
    fun c x hx => ⟨x, hx, List.prefix_rfl⟩, rfl, hc, hq, fun o' => ?_, fun o' => ?_, List.prefix_rfl, fun _ h => h⟩
  · simp only [hc, hq]; exact h.comp o'
  · simp only [hc, hq]; exact h.single o'
  · simp only [hc, hs]; exact h.flat o'
  · simp only [hl]; exact h.flags o'
  · simp only [hl, hc, hs]; exact h.gvalid o'
  · simp only [hl, hc, ctxOf, hq]; exact h.fvalid o'
  · simp only [hl]; exact h.owner o' o''
  · simp only [hl, hm]; exact h.cap o'
  · simp only [hs]; exact List.prefix_rfl
  · simp only [hl]; exact List.prefix_rfl

theorem Keeps.markSubs {s : St β} {os : List Nat} (h : Inv s) : Keeps (markSubs os) s := by
  induction os generalizing s with
  | nil => exact Good.refl h
  | cons o t ih => exact (Keeps.mark h).bind fun s' _ _ g => ih g.1

theorem Keeps.setSubs {s : St β} {type : FieldType} {values : Buf β} {os : List Nat} {fs : List (Option (Nat × Nat))}
    (h : Inv s) : Keeps (setSubs type values os fs) s := by
  induction os generalizing s fs with
  | nil => exact Good.refl h
  | cons o t ih =>
    cases fs with
    | nil => trivial
    | cons f u =>
      unfold Labels.setSubs
      refine (Keeps.getContext h).bind fun s' x _ g => ?_
      split
      · refine (Keeps.deref g.1).bind fun s' l _ g => ?_
        refine (Keeps.setField g.1).bind fun s' l _ g => ?_
        exact ih g.1
      · exact ih g.1

theorem Keeps.firstSub {γ : Type} {s : St β} {act : Label → M (World β) γ}
    (ha : ∀ s c l, Inv s → Keeps (Labels.onCtx c (act l)) s) {os : List Nat} {fs : List (Option (Nat × Nat))}
    (h : Inv s) : Keeps (firstSub act os fs) s := by
  induction os generalizing s fs with
  | nil => exact Good.refl h
  | cons o t ih =>
    cases fs with
    | nil => trivial
    | cons f u =>
      unfold Labels.firstSub
      refine (Keeps.getContext h).bind fun s' x _ g => ?_
      split
      · refine (Keeps.deref g.1).bind fun s' l _ g => ?_
        refine (ha _ _ _ g.1).bind fun s' l _ g => ?_
        exact Keeps.pure g.1
      · exact ih g.1

theorem Keeps.corresponds {s : St β} {o : Nat} {p : Option LPtr} (h : Inv s) : Keeps (corresponds o p) s := by
  unfold Labels.corresponds
  refine (Keeps.getS h).bind fun s' _ _ g => ?_
  cases p with
  | none => exact Keeps.fail g.1
  | some p => exact (Keeps.check g.1).bind fun s' _ _ g => Keeps.pure g.1

theorem Keeps.setLabel {s : St β} {o : Nat} {p : Option LPtr} {type : FieldType} {values : Buf β} (h : Inv s) :
    Keeps (setLabel o p type values) s := by
  unfold Labels.setLabel
  refine (Keeps.corresponds h).bind fun s' p _ g => ?_
  refine (Keeps.getS g.1).bind fun s' s _ g => ?_
  split
  · refine (Keeps.numSub g.1).bind fun s' n _ g => ?_
    refine (Keeps.check g.1).bind fun s' _ _ g => ?_
    refine (Keeps.subLabels g.1).bind fun s' _ _ g => ?_
    exact (Keeps.setSubs g.1).bind fun s' _ _ g => Keeps.markSubs g.1
  · refine (Keeps.getContext g.1).bind fun s' x _ g => ?_
    cases x with
    | none => exact Keeps.fail g.1
    | some c =>
      refine (Keeps.readLabel g.1).bind fun s' x _ g => ?_
      exact (Keeps.setField g.1).bind fun s' x _ g => Keeps.markSubs g.1

theorem Keeps.withLabel {γ : Type} {s : St β} {act : Label → M (World β) γ}
    (ha : ∀ s c l, Inv s → Keeps (Labels.onCtx c (act l)) s) {o : Nat} {p : Option LPtr} (h : Inv s) :
    Keeps (withLabel o p act) s := by
  unfold Labels.withLabel
  refine (Keeps.corresponds h).bind fun s' p _ g => ?_
  refine (Keeps.getS g.1).bind fun s' s _ g => ?_
  split
  · refine (Keeps.numSub g.1).bind fun s' n _ g => ?_
    refine (Keeps.check g.1).bind fun s' _ _ g => ?_
    refine (Keeps.subLabels g.1).bind fun s' _ _ g => ?_
    exact Keeps.firstSub ha g.1
  · refine (Keeps.getContext g.1).bind fun s' x _ g => ?_
    cases x with
    | none => exact Keeps.fail g.1
    | some c =>
      refine (Keeps.readLabel g.1).bind fun s' x _ g => ?_
      exact (ha _ _ _ g.1).bind fun s' x _ g => Keeps.pure g.1

theorem Keeps.addSub {s : St β} {c o : Nat} {fits : Bool} (h : Inv s) : Keeps (addSub c o fits) s := by
  unfold Keeps Labels.addSub
  simp only [Labels.getS, M.bind_apply, Out.bind_ok, M.check_apply]
  split_ifs with h1 h2 h3
  any_goals exact Good.refl h
  simp only [Out.bind_ok, modOp]
  set t : Nat → LOp := Function.update s.ops c { s.ops c with subs := (s.ops c).subs ++ [o] } with ht
  have ho : ∀ o', t o' = { s.ops o' with subs := (t o').subs } := by
    intro o'
    by_cases e : o' = c
    · subst e; simp [ht]
    · simp [ht, Function.update_of_ne e]
  have hc : ∀ o', (t o').comp = (s.ops o').comp := fun o' => by rw [ho]
  have hq : ∀ o', (t o').qf = (s.ops o').qf := fun o' => by rw [ho]
  have hl : ∀ o', (t o').labels = (s.ops o').labels := fun o' => by rw [ho]
  have hm : ∀ o', (t o').maxLabels = (s.ops o').maxLabels := fun o' => by rw [ho]
  have hs : ∀ o', (s.ops o').subs <+: (t o').subs := by
    intro o'
    by_cases e : o' = c
    · subst e; simp [ht]
    · simp [ht, Function.update_of_ne e]
  have hs1 : ∀ o', (s.ops o').comp = false → (t o').subs = (s.ops o').subs := by
    intro o' e'
    by_cases e : o' = c
    · subst e; rw [h1] at e'; cases e'
    · simp [ht, Function.update_of_ne e]
  refine ⟨⟨h.ctx, fun o' => ?_, fun o' => ?_, fun o' => ?_, fun o' => ?_, h.gflags, fun o' k hk => ?_, fun o' => ?_, fun o' o'' => ?_, fun o' => ?_⟩,
    fun c x hx => ⟨x, hx, List.prefix_rfl⟩, rfl, hc, hq, hs, fun o' => ?_, List.prefix_rfl, fun _ h => h⟩
  · simp only [hc, hq]; exact h.comp o'
  · simp only [hc, hq]; exact h.single o'
  · simp only [hc]; intro e; rw [hs1 o' e]; exact h.flat o' e
  · simp only [hl]; exact h.flags o'
  · simp only [hl] at hk
    obtain ⟨e1, g, e2, e3⟩ := h.gvalid o' k hk
    exact ⟨(hc o').trans e1, g, e2, e3.trans (hs o').length_le⟩
  · simp only [hl, hc, ctxOf, hq]; exact h.fvalid o'
  · simp only [hl]; exact h.owner o' o''
  · simp only [hl, hm]; exact h.cap o'
  · simp only [hl]; exact List.prefix_rfl

omit [DecidableEq β] in
theorem scan_same {s s' : St β} {name : String} {ps : List LPtr} {r : Option LPtr} (h : scan name ps s = .ok s' r) :
    s' = s := by
  induction ps with
  | nil => simp only [scan, M.pure_apply, Out.ok.injEq] at h; exact h.1.symm
  | cons p t ih =>
    simp only [scan, M.bind_apply] at h
    obtain ⟨s1, l, e1, e2⟩ := Out.bind_eq_ok.1 h
    have : s1 = s := by
      cases p with
      | field c j => exact (deref_ok e1).1
      | group k =>
        unfold readLabel at e1
        dsimp only at e1
        split at e1 <;> cases e1
        rfl
    subst this
    split_ifs at e2
    · simp only [M.pure_apply, Out.ok.injEq] at e2; exact e2.1.symm
    · exact ih e2

omit [DecidableEq β] in
theorem readLabel_err {s s' : St β} {p : LPtr} {e : Err} : readLabel p s ≠ .err s' e := by
  cases p with
  | field c j => exact deref_err
  | group k =>
    intro h
    unfold readLabel at h
    dsimp only at h
    split at h <;> cases h

omit [DecidableEq β] in
theorem scan_err {s s' : St β} {name : String} {ps : List LPtr} {e : Err} : scan name ps s ≠ .err s' e := by
  induction ps with
  | nil => intro h; cases h
  | cons p t ih =>
    intro h
    simp only [scan, M.bind_apply] at h
    rcases Out.bind_eq_err.1 h with h | ⟨s1, l, e1, e2⟩
    · exact readLabel_err h
    · have : s1 = s := by
        cases p with
        | field c j => exact (deref_ok e1).1
        | group k =>
          unfold readLabel at e1
          dsimp only at e1
          split at e1 <;> cases e1
          rfl
      subst this
      split_ifs at e2
      exact ih e2

/-- Sub-label for an operator. -/
def subOf (s : St β) (name : String) (o : Nat) : Option (Nat × Nat) :=
  match ctxOf s o with
  | none => none
  | some c => (look s c name).map fun x => (c, x.1)

/-- Fields of an operator. -/
def fieldOf (s : St β) (name : String) (o : Nat) : Option Label :=
  match ctxOf s o with
  | none => none
  | some c => (look s c name).map fun x => x.2

omit [DecidableEq β] in
theorem build_ok {s s' : St β} {name : String} {os : List Nat} {acc : List (Option (Nat × Nat))} {g : Option Group}
    {r : List (Option (Nat × Nat)) × Option Group} (h : build name os acc g s = .ok s' r) :
    s' = s ∧ r.1 = acc ++ os.map (subOf s name) ∧ (r.2 = none ↔ g = none ∧ ∀ o ∈ os, fieldOf s name o = none) ∧
    (∀ G, r.2 = some G → ((∃ g0, g = some g0 ∧ g0.name = name) ∨ g = none → G.name = name) ∧
      (∀ g0, g = some g0 → g0.type = G.type) ∧ ∀ o ∈ os, ∀ l, fieldOf s name o = some l → l.type = G.type) := by
  induction os generalizing acc g with
  | nil =>
    simp only [build, M.pure_apply, Out.ok.injEq] at h
    obtain ⟨rfl, rfl⟩ := h
    refine ⟨rfl, by simp, by simp, fun G hG => ⟨?_, ?_, by simp⟩⟩
    all_goals dsimp only at hG
    · rintro (⟨g0, h1, h2⟩ | h1)
      · rw [hG] at h1; cases h1; exact h2
      · rw [hG] at h1; cases h1
    · intro g0 h1
      rw [hG] at h1; cases h1; rfl
  | cons o t ih =>
    simp only [build, getS, M.bind_apply, Out.bind_ok] at h
    have hctx : ctxOf s o = match (s.ops o).qf with | some q => s.qctx q | none => none := rfl
    cases hq : (s.ops o).qf with
    | none => rw [hq] at h; cases h
    | some q =>
      rw [hq] at h hctx
      dsimp only at h hctx
      cases hc : s.qctx q with
      | none =>
        rw [hc] at h hctx
        obtain ⟨h1, h2, h3, h4⟩ := ih h
        have hs : subOf s name o = none := by unfold subOf; rw [hctx]
        have hf : fieldOf s name o = none := by unfold fieldOf; rw [hctx]
        refine ⟨h1, by rw [h2]; simp [hs], by rw [h3]; simp [hf], fun G hG => ?_⟩
        obtain ⟨k1, k2, k3⟩ := h4 G hG
        refine ⟨k1, k2, fun o' ho' l hl => ?_⟩
        rcases List.mem_cons.1 ho' with rfl | ho'
        · rw [hf] at hl; cases hl
        · exact k3 o' ho' l hl
      | some c =>
        rw [hc] at h hctx
        dsimp only [M.bind_apply] at h
        obtain ⟨s1, r1, e1, e2⟩ := Out.bind_eq_ok.1 h
        obtain ⟨rfl, rfl, -⟩ := findField_ok e1
        cases hl : look s1 c name with
        | none =>
          rw [hl] at e2
          obtain ⟨h1, h2, h3, h4⟩ := ih e2
          have hs : subOf s1 name o = none := by unfold subOf; rw [hctx]; simp [hl]
          have hf : fieldOf s1 name o = none := by unfold fieldOf; rw [hctx]; simp [hl]
          refine ⟨h1, by rw [h2]; simp [hs], by rw [h3]; simp [hf], fun G hG => ?_⟩
          obtain ⟨k1, k2, k3⟩ := h4 G hG
          refine ⟨k1, k2, fun o' ho' l hl => ?_⟩
          rcases List.mem_cons.1 ho' with rfl | ho'
          · rw [hf] at hl; cases hl
          · exact k3 o' ho' l hl
        | some x =>
          obtain ⟨j, l⟩ := x
          rw [hl] at e2
          dsimp only [M.bind_apply] at e2
          obtain ⟨s2, g', e3, e4⟩ := Out.bind_eq_ok.1 e2
          have hs : subOf s1 name o = some (c, j) := by unfold subOf; rw [hctx]; simp [hl]
          have hf : fieldOf s1 name o = some l := by unfold fieldOf; rw [hctx]; simp [hl]
          have hj : s2 = s1 ∧ g'.name = l.name ∧ g'.type = l.type ∧ ∀ g0, g = some g0 → g0.type = l.type := by
            unfold joinGroup at e3
            split at e3
            · simp only [M.pure_apply, Out.ok.injEq] at e3
              obtain ⟨rfl, rfl⟩ := e3
              exact ⟨rfl, rfl, rfl, fun _ h => by cases h⟩
            · split_ifs at e3 with t1 t2
              · cases e3
              · cases e3
              simp only [M.pure_apply, Out.ok.injEq] at e3
              obtain ⟨rfl, rfl⟩ := e3
              exact ⟨rfl, rfl, rfl, fun _ h => by cases h; exact not_not.1 t1⟩
          obtain ⟨rfl, j1, j2, j3⟩ := hj
          obtain ⟨h1, h2, h3, h4⟩ := ih e4
          have hn : l.name = name := (look_some hl).choose_spec.2.2
          refine ⟨h1, by rw [h2]; simp [hs], by rw [h3]; simp [hf], fun G hG => ?_⟩
          obtain ⟨k1, k2, k3⟩ := h4 G hG
          refine ⟨fun _ => k1 (Or.inl ⟨g', rfl, j1.trans hn⟩), fun g0 h0 => (j3 g0 h0).trans (j2.symm.trans (k2 g' rfl)),
            fun o' ho' l' hl' => ?_⟩
          rcases List.mem_cons.1 ho' with rfl | ho'
          · rw [hf] at hl'; cases hl'
            exact j2.symm.trans (k2 g' rfl)
          · exact k3 o' ho' l' hl'

omit [DecidableEq β] in
theorem build_err {s s' : St β} {name : String} {os : List Nat} {acc : List (Option (Nat × Nat))} {g : Option Group}
    {e : Err} : build name os acc g s ≠ .err s' e := by
  induction os generalizing acc g with
  | nil => intro h; cases h
  | cons o t ih =>
    intro h
    simp only [build, getS, M.bind_apply, Out.bind_ok] at h
    cases hq : (s.ops o).qf with
    | none => rw [hq] at h; cases h
    | some q =>
      rw [hq] at h
      dsimp only at h
      cases hc : s.qctx q with
      | none => rw [hc] at h; exact ih h
      | some c =>
        rw [hc] at h
        dsimp only [M.bind_apply] at h
        rcases Out.bind_eq_err.1 h with h | ⟨s1, r1, e1, e2⟩
        · unfold findField at h
          split at h
          · cases h
          · split_ifs at h
            split at h <;> cases h
        · obtain ⟨rfl, rfl, -⟩ := findField_ok e1
          cases hl : look s1 c name with
          | none => rw [hl] at e2; exact ih e2
          | some x =>
            rw [hl] at e2
            dsimp only [M.bind_apply] at e2
            rcases Out.bind_eq_err.1 e2 with e3 | ⟨s2, g', e3, e4⟩
            · unfold joinGroup at e3
              split at e3
              · cases e3
              · split_ifs at e3 <;> cases e3
            · have : s2 = s1 := by
                unfold joinGroup at e3
                split at e3
                · cases e3; rfl
                · split_ifs at e3
                  · cases e3
                  · cases e3
                  · cases e3; rfl
              subst this
              exact ih e4

/-- The state after recording a label. -/
def recorded (s : St β) (o : Nat) (p : LPtr) (m : Nat) : St β :=
  { s with
    fromOp := Function.update s.fromOp p true
    ops := Function.update s.ops o { s.ops o with labels := (s.ops o).labels ++ [p], maxLabels := m } }

omit [DecidableEq β] in
theorem record_ok {s s' : St β} {o : Nat} {p : LPtr} (h : record o p s = .ok s' ()) :
    ∃ m, (s.ops o).labels.length < m ∧ s' = recorded s o p m := by
  unfold record at h
  simp only [flag, getS, M.bind_apply, Out.bind_ok, modOp] at h
  split_ifs at h <;> first | (cases h; exact ⟨_, by assumption, rfl⟩) | cases h

omit [DecidableEq β] in
theorem record_err {s s' : St β} {o : Nat} {p : LPtr} {e : Err} : record o p s ≠ .err s' e := by
  intro h
  unfold record at h
  simp only [flag, getS, M.bind_apply, Out.bind_ok, modOp] at h
  split_ifs at h <;> cases h

/-- Recording a field label of the operator's own context. -/
theorem Good.record {s : St β} (h : Inv s) {o c j m : Nat} (hc : (s.ops o).comp = false) (hx : ctxOf s o = some c)
    (hcap : (s.ops o).labels.length < m) : Good s (recorded s o (.field c j) m) := by
  set t : Nat → LOp := Function.update s.ops o { s.ops o with labels := (s.ops o).labels ++ [.field c j], maxLabels := m }
    with ht
  have hcmp : ∀ o', (t o').comp = (s.ops o').comp := by
    intro o'
    by_cases e : o' = o
    · subst e; simp [ht]
    · simp [ht, Function.update_of_ne e]
  have hq : ∀ o', (t o').qf = (s.ops o').qf := by
    intro o'
    by_cases e : o' = o
    · subst e; simp [ht]
    · simp [ht, Function.update_of_ne e]
  have hs : ∀ o', (t o').subs = (s.ops o').subs := by
    intro o'
    by_cases e : o' = o
    · subst e; simp [ht]
    · simp [ht, Function.update_of_ne e]
  have hl : ∀ o', (s.ops o').labels <+: (t o').labels := by
    intro o'
    by_cases e : o' = o
    · subst e; simp [ht]
    · simp [ht, Function.update_of_ne e]
  have hm : ∀ o' p, p ∈ (t o').labels → p ∈ (s.ops o').labels ∨ o' = o ∧ p = .field c j := by
    intro o' p hp
    by_cases e : o' = o
    · subst e
      simp only [ht, Function.update_self, List.mem_append, List.mem_singleton] at hp
      rcases hp with hp | hp
      · exact .inl hp
      · exact .inr ⟨rfl, hp⟩
    · simp only [ht, Function.update_of_ne e] at hp
      exact .inl hp
  have hf : ∀ p, s.fromOp p = true → (Function.update s.fromOp (.field c j) true) p = true := by
    intro p hp
    by_cases e : p = .field c j
    · subst e; simp
    · rw [Function.update_of_ne e]; exact hp
  refine ⟨⟨h.ctx, fun o' => ?_, fun o' => ?_, fun o' => ?_, fun o' p hp => ?_, fun k hk => hf _ (h.gflags k hk),
    fun o' k hk => ?_, fun o' c' j' hp => ?_, fun o' o'' k h1 h2 => ?_, fun o' => ?_⟩,
    fun c x hx => ⟨x, hx, List.prefix_rfl⟩, rfl, hcmp, hq, fun o' => ?_, hl, List.prefix_rfl, hf⟩
  · show (t o').comp = true → (t o').qf = none
    rw [hcmp, hq]; exact h.comp o'
  · show (t o').comp = false → (t o').qf ≠ none
    rw [hcmp, hq]; exact h.single o'
  · show (t o').comp = false → (t o').subs = []
    rw [hcmp, hs]; exact h.flat o'
  · rcases hm o' p hp with hp | ⟨-, rfl⟩
    · exact hf p (h.flags o' p hp)
    · exact Function.update_self ..
  · rcases hm o' _ hk with hp | ⟨-, hp⟩
    · obtain ⟨e1, g, e2, e3⟩ := h.gvalid o' k hp
      exact ⟨(hcmp o').trans e1, g, e2, e3.trans (le_of_eq (congrArg _ (hs o').symm))⟩
    · cases hp
  · have hcx : ctxOf (recorded s o (.field c j) m) o' = ctxOf s o' := by
      unfold ctxOf recorded
      dsimp only
      rw [← ht, hq]
    rw [hcx]
    rcases hm o' _ hp with hp' | ⟨rfl, hp'⟩
    · obtain ⟨e1, e2⟩ := h.fvalid o' c' j' hp'
      exact ⟨(hcmp o').trans e1, e2⟩
    · cases hp'
      exact ⟨(hcmp o').trans hc, hx⟩
  · rcases hm o' _ h1 with h1 | ⟨-, h1⟩
    · rcases hm o'' _ h2 with h2 | ⟨-, h2⟩
      · exact h.owner o' o'' k h1 h2
      · cases h2
    · cases h1
  · show (t o').labels.length ≤ (t o').maxLabels
    by_cases e : o' = o
    · subst e; simp only [ht, Function.update_self, List.length_append, List.length_singleton]; omega
    · simp only [ht, Function.update_of_ne e]; exact h.cap o'
  · show (s.ops o').subs <+: (t o').subs
    rw [hs]

/-- Recording a new label of a composite. -/
theorem Good.group {s : St β} (h : Inv s) {o m : Nat} {g : Group} (hc : (s.ops o).comp = true)
    (hg : g.subs.length ≤ (s.ops o).subs.length) (hcap : (s.ops o).labels.length < m) :
    Good s (recorded { s with groups := s.groups ++ [g] } o (.group s.groups.length) m) := by
  set p : LPtr := .group s.groups.length with hp0
  set t : Nat → LOp := Function.update s.ops o { s.ops o with labels := (s.ops o).labels ++ [p], maxLabels := m }
    with ht
  have hcmp : ∀ o', (t o').comp = (s.ops o').comp := by
    intro o'
    by_cases e : o' = o
    · subst e; simp [ht]
    · simp [ht, Function.update_of_ne e]
  have hq : ∀ o', (t o').qf = (s.ops o').qf := by
    intro o'
    by_cases e : o' = o
    · subst e; simp [ht]
    · simp [ht, Function.update_of_ne e]
  have hs : ∀ o', (t o').subs = (s.ops o').subs := by
    intro o'
    by_cases e : o' = o
    · subst e; simp [ht]
    · simp [ht, Function.update_of_ne e]
  have hl : ∀ o', (s.ops o').labels <+: (t o').labels := by
    intro o'
    by_cases e : o' = o
    · subst e; simp [ht]
    · simp [ht, Function.update_of_ne e]
  have hm : ∀ o' q, q ∈ (t o').labels → q ∈ (s.ops o').labels ∨ o' = o ∧ q = p := by
    intro o' q hq
    by_cases e : o' = o
    · subst e
      simp only [ht, Function.update_self, List.mem_append, List.mem_singleton] at hq
      rcases hq with hq | hq
      · exact .inl hq
      · exact .inr ⟨rfl, hq⟩
    · simp only [ht, Function.update_of_ne e] at hq
      exact .inl hq
  have hf : ∀ q, s.fromOp q = true → (Function.update s.fromOp p true) q = true := by
    intro q hq
    by_cases e : q = p
    · subst e; simp
    · rw [Function.update_of_ne e]; exact hq
  have hold : ∀ o' k, LPtr.group k ∈ (s.ops o').labels → k < s.groups.length := by
    intro o' k hk
    obtain ⟨-, g, e, -⟩ := h.gvalid o' k hk
    exact (List.getElem?_eq_some_iff.1 e).1
  refine ⟨⟨h.ctx, fun o' => ?_, fun o' => ?_, fun o' => ?_, fun o' q hp => ?_, fun k hk => ?_,
    fun o' k hk => ?_, fun o' c' j' hp => ?_, fun o' o'' k h1 h2 => ?_, fun o' => ?_⟩,
    fun c x hx => ⟨x, hx, List.prefix_rfl⟩, rfl, hcmp, hq, fun o' => ?_, hl, List.prefix_append .., hf⟩
  · show (t o').comp = true → (t o').qf = none
    rw [hcmp, hq]; exact h.comp o'
  · show (t o').comp = false → (t o').qf ≠ none
    rw [hcmp, hq]; exact h.single o'
  · show (t o').comp = false → (t o').subs = []
    rw [hcmp, hs]; exact h.flat o'
  · rcases hm o' q hp with hp | ⟨-, rfl⟩
    · exact hf q (h.flags o' q hp)
    · exact Function.update_self ..
  · show Function.update s.fromOp p true (.group k) = true
    have hk' : k < (s.groups ++ [g]).length := hk
    rw [List.length_append, List.length_singleton] at hk'
    rcases Nat.lt_succ_iff_lt_or_eq.1 hk' with hk' | hk'
    · exact hf _ (h.gflags k hk')
    · rw [hk', hp0, Function.update_self]
  · rcases hm o' _ hk with hk' | ⟨rfl, hk'⟩
    · obtain ⟨e1, g', e2, e3⟩ := h.gvalid o' k hk'
      refine ⟨(hcmp o').trans e1, g', ?_, e3.trans (le_of_eq (congrArg _ (hs o').symm))⟩
      show (s.groups ++ [g])[k]? = some g'
      rw [List.getElem?_append_left (hold o' k hk')]
      exact e2
    · rw [hp0] at hk'
      cases hk'
      refine ⟨(hcmp o').trans hc, g, ?_, hg.trans (le_of_eq (congrArg _ (hs o').symm))⟩
      show (s.groups ++ [g])[s.groups.length]? = some g
      simp
  · have hcx : ctxOf (recorded { s with groups := s.groups ++ [g] } o p m) o' = ctxOf s o' := by
      unfold ctxOf recorded
      dsimp only
      rw [← ht, hq]
    rw [hcx]
    rcases hm o' _ hp with hp' | ⟨rfl, hp'⟩
    · obtain ⟨e1, e2⟩ := h.fvalid o' c' j' hp'
      exact ⟨(hcmp o').trans e1, e2⟩
    · rw [hp0] at hp'; cases hp'
  · rcases hm o' _ h1 with h1' | ⟨h1', e1⟩ <;> rcases hm o'' _ h2 with h2' | ⟨h2', e2⟩
    · exact h.owner o' o'' k h1' h2'
    · rw [hp0] at e2; cases e2
      exact absurd (hold o' _ h1') (lt_irrefl _)
    · rw [hp0] at e1; cases e1
      exact absurd (hold o'' _ h2') (lt_irrefl _)
    · rw [h1', h2']
  · show (t o').labels.length ≤ (t o').maxLabels
    by_cases e : o' = o
    · subst e; simp only [ht, Function.update_self, List.length_append, List.length_singleton]; omega
    · simp only [ht, Function.update_of_ne e]; exact h.cap o'
  · show (s.ops o').subs <+: (t o').subs
    rw [hs]

/-- What asking for a label gives. -/
theorem getLabel_ok {s s' : St β} {o : Nat} {name : String} {r : Option LPtr} (h : getLabel o name s = .ok s' r) :
    ((s.ops o).comp = true ∧
      ((∃ p, scan name (s.ops o).labels s = .ok s (some p) ∧ s' = s ∧ r = some p) ∨
      (scan name (s.ops o).labels s = .ok s none ∧
        ((s' = s ∧ r = none ∧ ∀ i ∈ (s.ops o).subs, fieldOf s name i = none) ∨
        ∃ m g, (s.ops o).labels.length < m ∧ s' = recorded { s with groups := s.groups ++ [g] } o (.group s.groups.length) m ∧
          r = some (.group s.groups.length) ∧ g.name = name ∧ g.subs = (s.ops o).subs.map (subOf s name) ∧
          (∃ i ∈ (s.ops o).subs, fieldOf s name i ≠ none) ∧
          ∀ i ∈ (s.ops o).subs, ∀ l, fieldOf s name i = some l → l.type = g.type)))) ∨
    ((s.ops o).comp = false ∧
      ((s' = s ∧ r = none ∧ fieldOf s name o = none) ∨
      ∃ c j l m, (s.ops o).labels.length < m ∧ ctxOf s o = some c ∧ look s c name = some (j, l) ∧ s' = recorded s o (.field c j) m ∧
        r = some (.field c j))) := by
  unfold getLabel at h
  simp only [getS, M.bind_apply, Out.bind_ok] at h
  by_cases hc : (s.ops o).comp = true
  · rw [if_pos hc] at h
    left
    refine ⟨hc, ?_⟩
    obtain ⟨s1, f, e1, e2⟩ := Out.bind_eq_ok.1 h
    obtain rfl := scan_same e1
    cases f with
    | some p =>
      simp only [M.pure_apply, Out.ok.injEq] at e2
      exact Or.inl ⟨p, e1, e2.1.symm, e2.2.symm⟩
    | none =>
      right
      refine ⟨e1, ?_⟩
      simp only [makeGroup, getS, M.bind_apply, Out.bind_ok] at e2
      obtain ⟨s2, b, e3, e4⟩ := Out.bind_eq_ok.1 e2
      obtain ⟨rfl, b1, b2, b3⟩ := build_ok e3
      cases hb : b.2 with
      | none =>
        rw [hb] at e4
        simp only [M.pure_apply, Out.ok.injEq] at e4
        exact Or.inl ⟨e4.1.symm, e4.2.symm, (b2.1 hb).2⟩
      | some g =>
        right
        rw [hb] at e4
        simp only [pushGroup, M.bind_apply, Out.bind_ok] at e4
        obtain ⟨s3, u, e5, e6⟩ := Out.bind_eq_ok.1 e4
        obtain ⟨m, hm, rfl⟩ := record_ok e5
        simp only [M.pure_apply, Out.ok.injEq] at e6
        obtain ⟨k1, k2, k3⟩ := b3 g hb
        refine ⟨m, _, hm, e6.1.symm, e6.2.symm, k1 (Or.inr rfl), ?_, ?_, k3⟩
        · rw [b1]; simp
        · by_contra hn
          rw [b2.2 ⟨rfl, fun i hi => by by_contra hh; exact hn ⟨i, hi, hh⟩⟩] at hb
          cases hb
  · rw [if_neg hc] at h
    right
    refine ⟨by simpa using hc, ?_⟩
    simp only [ownLabel, M.bind_apply] at h
    obtain ⟨s1, x, e1, e2⟩ := Out.bind_eq_ok.1 h
    obtain ⟨rfl, rfl, -⟩ := getContext_ok e1
    cases hx : ctxOf s1 o with
    | none =>
      rw [hx] at e2
      simp only [M.pure_apply, Out.ok.injEq] at e2
      exact Or.inl ⟨e2.1.symm, e2.2.symm, by unfold fieldOf; rw [hx]⟩
    | some c =>
      rw [hx] at e2
      simp only [M.bind_apply] at e2
      obtain ⟨s2, f, e3, e4⟩ := Out.bind_eq_ok.1 e2
      obtain ⟨rfl, rfl, -⟩ := findField_ok e3
      cases hl : look s2 c name with
      | none =>
        rw [hl] at e4
        simp only [M.pure_apply, Out.ok.injEq] at e4
        exact Or.inl ⟨e4.1.symm, e4.2.symm, by unfold fieldOf; rw [hx]; simp [hl]⟩
      | some y =>
        obtain ⟨j, l⟩ := y
        rw [hl] at e4
        simp only [M.bind_apply] at e4
        obtain ⟨s3, u, e5, e6⟩ := Out.bind_eq_ok.1 e4
        obtain ⟨m, hm, rfl⟩ := record_ok e5
        simp only [M.pure_apply, Out.ok.injEq] at e6
        exact Or.inr ⟨c, j, l, m, hm, rfl, hl, e6.1.symm, e6.2.symm⟩

theorem getLabel_err {s s' : St β} {o : Nat} {name : String} {e : Err} (h : getLabel o name s = .err s' e) : s' = s := by
  unfold getLabel at h
  simp only [getS, M.bind_apply, Out.bind_ok] at h
  by_cases hc : (s.ops o).comp = true
  · rw [if_pos hc] at h
    rcases Out.bind_eq_err.1 h with h | ⟨s1, f, e1, e2⟩
    · exact absurd h scan_err
    obtain rfl := scan_same e1
    cases f with
    | some p => cases e2
    | none =>
      simp only [makeGroup, getS, M.bind_apply, Out.bind_ok] at e2
      rcases Out.bind_eq_err.1 e2 with e2 | ⟨s2, b, e3, e4⟩
      · exact absurd e2 build_err
      cases hb : b.2 with
      | none => rw [hb] at e4; cases e4
      | some g =>
        rw [hb] at e4
        simp only [pushGroup, M.bind_apply, Out.bind_ok] at e4
        rcases Out.bind_eq_err.1 e4 with e4 | ⟨s3, u, e5, e6⟩
        · exact absurd e4 record_err
        · cases e6
  · rw [if_neg hc] at h
    simp only [ownLabel, M.bind_apply] at h
    rcases Out.bind_eq_err.1 h with h | ⟨s1, x, e1, e2⟩
    · exact getContext_err h
    obtain ⟨rfl, rfl, -⟩ := getContext_ok e1
    cases hx : ctxOf s1 o with
    | none => rw [hx] at e2; cases e2
    | some c =>
      rw [hx] at e2
      simp only [M.bind_apply] at e2
      rcases Out.bind_eq_err.1 e2 with h | ⟨s2, f, e3, e4⟩
      · unfold findField at h
        split at h
        · cases h
        · split_ifs at h
          split at h <;> cases h
      obtain ⟨rfl, rfl, -⟩ := findField_ok e3
      cases hl : look s2 c name with
      | none => rw [hl] at e4; cases e4
      | some y =>
        rw [hl] at e4
        simp only [M.bind_apply] at e4
        rcases Out.bind_eq_err.1 e4 with e4 | ⟨s3, u, e5, e6⟩
        · exact absurd e4 record_err
        · cases e6

theorem Keeps.getLabel {s : St β} {o : Nat} {name : String} (h : Inv s) : Keeps (getLabel o name) s := by
  unfold Keeps
  cases hm : Labels.getLabel o name s with
  | ub => trivial
  | err s' e => obtain rfl := getLabel_err hm; exact Good.refl h
  | ok s' r =>
    rcases getLabel_ok hm with ⟨hc, ⟨p, -, rfl, -⟩ | ⟨-, ⟨rfl, -⟩ | ⟨m, g, hm', rfl, -, -, hg, -⟩⟩⟩ |
      ⟨hc, ⟨rfl, -⟩ | ⟨c, j, l, m, hm', hx, -, rfl, -⟩⟩
    · exact Good.refl h
    · exact Good.refl h
    · exact Good.group h hc (by rw [hg]; simp) hm'
    · exact Good.refl h
    · exact Good.record h hc hx hm'

theorem Keeps.exec {s : St β} (h : Inv s) (c : Call β) : Keeps (exec c) s := by
  cases c with
  | ctx c call =>
    refine (Keeps.onCtx h call (fun w a e => ⟨a, e⟩) fun w e he => ⟨e, he⟩).bind fun s' _ _ g => Keeps.pure g.1
  | addSub c o fits => exact Keeps.addSub h
  | getLabel o name => exact (Keeps.getLabel h).bind fun s' _ _ g => Keeps.pure g.1
  | set o p type values => exact Keeps.setLabel h
  | getRead o p type =>
    exact (Keeps.withLabel (fun s c l hs => Keeps.getField hs) h).bind fun s' _ _ g => Keeps.pure g.1
  | restoreRead o p type =>
    exact (Keeps.withLabel (fun s c l hs => Keeps.restoreField hs) h).bind fun s' _ _ g => Keeps.pure g.1

theorem Runs.good {s s' : St β} (h : Inv s) (hr : Runs s s') : Good s s' := by
  induction hr with
  | refl => exact Good.refl h
  | @ok a b c hr he ih =>
    have := Keeps.exec ih.1 c
    unfold Keeps at this
    rw [he] at this
    exact ih.trans this
  | @err a b c e hr he ih =>
    have := Keeps.exec ih.1 c
    unfold Keeps at this
    rw [he] at this
    exact ih.trans this

theorem Reached.inv {s : St β} (h : Reached s) : Inv s := by
  obtain ⟨s0, h0, hr⟩ := h
  exact (hr.good h0.inv).1

end

end Labels
end Verif
