import Verif.Operator.LabelsLemmas

/-!
# C48: fields of QFunction contexts set through operators
-/

namespace Verif
namespace Labels

open Context (World Ctx Label FieldType View)

section
variable {β : Type} [DecidableEq β]

/-! ## Lemmas -/

/-- What is known when setting a field succeeds. -/
theorem setField_inv {w w' : World β} {l : Label} {type : FieldType} {values : Buf β}
    (h : Context.setField l type values w = .ok w' ()) : ∃ x a b, w.ctx = some x ∧ x.data = some a ∧ w.heap a = some b ∧
      l.offset + l.size ≤ b.len ∧ l.size ≤ values.len := by
  cases hx : w.ctx with
  | none =>
    unfold Context.setField at h
    simp only [M.bind_apply, Context.getC_none hx, Out.bind_ub] at h
    cases h
  | some x =>
    cases hd : x.data with
    | none =>
      obtain ⟨e, he⟩ := Context.setField_noData hx l type values hd
      rw [he] at h; cases h
    | some a =>
      by_cases ho : x.state % 2 = 0
      swap
      · obtain ⟨e, he⟩ := Context.setField_odd hx l type values ho
        rw [he] at h; cases h
      unfold Context.setField at h
      simp only [M.bind_apply, Context.getC_some hx, Out.bind_ok, M.check_apply] at h
      split_ifs at h with ht
      swap
      · cases h
      simp only [Out.bind_ok, Context.getDataRead_eq hx, if_pos ho, hd, Option.isSome_some, if_true] at h
      simp only [Context.differs, M.bind_apply, Context.getB] at h
      cases hb : w.heap a with
      | none =>
        simp only [Context.setCtx_heap, hb, Out.bind_ub] at h
        cases h
      | some b =>
        simp only [Context.setCtx_heap, hb, Out.bind_ok] at h
        split_ifs at h with hin
        · exact ⟨x, a, b, rfl, hd, hb, hin.1, hin.2⟩
        · cases h

/-- Setting a field twice to the same values changes nothing the second time. -/
theorem setField_again {w w' : World β} {l : Label} {type : FieldType} {values : Buf β}
    (h : Context.setField l type values w = .ok w' ()) : Context.setField l type values w' = .ok w' () := by
  obtain ⟨x, a, b, hx, hd, hb, h1, h2⟩ := setField_inv h
  rw [Context.setField_eq hx l type values hd hb h1 h2] at h
  split_ifs at h with t1 t2 t3 t4
  · cases h
    rw [Context.setField_eq hx l type values hd hb h1 h2, if_pos t1, if_pos t2, if_pos t3]
  · cases h
    have hb' : ((w.setBlk a (some (Context.patch b l.offset values l.size))).setCtx (some { x with state := x.state + 2 })).heap a =
        some (Context.patch b l.offset values l.size) := by simp
    rw [Context.setField_eq (x := { x with state := x.state + 2 }) (a := a) rfl l type values hd hb' h1 h2, if_pos t1,
      if_pos (by show (x.state + 2) % 2 = 0; omega), if_pos]
    intro i hi
    show (if l.offset ≤ l.offset + i ∧ l.offset + i < l.offset + l.size then _ else _) = _
    rw [if_pos ⟨by omega, by omega⟩]
    congr 1; omega

omit [DecidableEq β] in
theorem onCtx_ok {γ : Type} {s s' : St β} {c : Nat} {m : M (World β) γ} {a : γ} (h : onCtx c m s = .ok s' a) :
    ∃ w, m (s.ctxs c) = .ok w a ∧ s' = { s with ctxs := Function.update s.ctxs c w } := by
  unfold onCtx at h
  cases hm : m (s.ctxs c) with
  | ok w b => rw [hm] at h; simp only [Out.ok.injEq] at h; obtain ⟨rfl, rfl⟩ := h; exact ⟨w, rfl, rfl⟩
  | err w e => rw [hm] at h; cases h
  | ub => rw [hm] at h; cases h

omit [DecidableEq β] in
theorem subOf_some {s : St β} {name : String} {o c j : Nat} (h : subOf s name o = some (c, j)) :
    ctxOf s o = some c ∧ ∃ l, look s c name = some (j, l) := by
  unfold subOf at h
  cases hx : ctxOf s o with
  | none => rw [hx] at h; cases h
  | some c' =>
    rw [hx] at h
    simp only [Option.map_eq_some_iff] at h
    obtain ⟨⟨j', l⟩, e, e'⟩ := h
    simp only [Prod.mk.injEq] at e'
    obtain ⟨rfl, rfl⟩ := e'
    exact ⟨rfl, l, e⟩

/-- The loop over the sub-operators sets the fields found when the label was made, and nothing else. -/
theorem setSubs_ok {s0 s s' : St β} {name : String} {type : FieldType} {values : Buf β} {os : List Nat} (hi : Inv s)
    (h : Later s0 s) (he : setSubs type values os (os.map (subOf s0 name)) s = .ok s' ()) :
    s'.qctx = s.qctx ∧ s'.ops = s.ops ∧ s'.groups = s.groups ∧ s'.fromOp = s.fromOp ∧
    (∀ o ∈ os, ∀ c j l, ctxOf s0 o = some c → look s0 c name = some (j, l) →
      Context.setField l type values (s.ctxs c) = .ok (s'.ctxs c) ()) ∧
    (∀ c, (∀ o ∈ os, ctxOf s0 o = some c → look s0 c name = none) → s'.ctxs c = s.ctxs c) ∧
    ∀ o ∈ os, (s.ops o).comp = false := by
  induction os generalizing s with
  | nil =>
    simp only [List.map_nil, setSubs, M.pure_apply, Out.ok.injEq, and_true] at he
    subst he
    exact ⟨rfl, rfl, rfl, rfl, by simp, fun _ _ => rfl, by simp⟩
  | cons o t ih =>
    simp only [List.map_cons, setSubs, M.bind_apply] at he
    obtain ⟨s1, x, e1, e2⟩ := Out.bind_eq_ok.1 he
    obtain ⟨rfl, rfl, hcmp⟩ := getContext_ok e1
    rw [h.ctxOf o] at e2
    have skip : (∀ c, ctxOf s0 o = some c → look s0 c name = none) →
        setSubs type values t (t.map (subOf s0 name)) s1 = .ok s' () →
        s'.qctx = s1.qctx ∧ s'.ops = s1.ops ∧ s'.groups = s1.groups ∧ s'.fromOp = s1.fromOp ∧
        (∀ o' ∈ o :: t, ∀ c j l, ctxOf s0 o' = some c → look s0 c name = some (j, l) →
          Context.setField l type values (s1.ctxs c) = .ok (s'.ctxs c) ()) ∧
        (∀ c, (∀ o' ∈ o :: t, ctxOf s0 o' = some c → look s0 c name = none) → s'.ctxs c = s1.ctxs c) ∧
        ∀ o' ∈ o :: t, (s1.ops o').comp = false := by
      intro hn he'
      obtain ⟨k1, k2, k3, k4, k5, k6, k7⟩ := ih hi h he'
      refine ⟨k1, k2, k3, k4, fun o' ho' c j l hx hl => ?_, fun c hc => k6 c fun o' ho' => hc o' (List.mem_cons_of_mem _ ho'),
        fun o' ho' => ?_⟩
      · rcases List.mem_cons.1 ho' with rfl | ho'
        · rw [hn c hx] at hl; cases hl
        · exact k5 o' ho' c j l hx hl
      · rcases List.mem_cons.1 ho' with rfl | ho'
        · exact hcmp
        · exact k7 o' ho'
    cases hx : ctxOf s0 o with
    | none =>
      rw [hx] at e2
      exact skip (fun c hc => by rw [hx] at hc; cases hc) e2
    | some c =>
      rw [hx] at e2
      cases hl : look s0 c name with
      | none =>
        have : subOf s0 name o = none := by unfold subOf; rw [hx]; simp [hl]
        rw [this] at e2
        exact skip (fun c' hc => by rw [hx] at hc; cases hc; exact hl) e2
      | some y =>
        obtain ⟨j, l⟩ := y
        have : subOf s0 name o = some (c, j) := by unfold subOf; rw [hx]; simp [hl]
        rw [this] at e2
        simp only [M.bind_apply] at e2
        obtain ⟨s2, l', e3, e4⟩ := Out.bind_eq_ok.1 e2
        obtain ⟨rfl, x1, hx1, hl1⟩ := deref_ok e3
        obtain ⟨x0, hx0, hl0, -⟩ := look_some hl
        have hll := h.deref hx0 hx1 hl0
        rw [hl1] at hll
        cases hll
        obtain ⟨s3, u, e5, e6⟩ := Out.bind_eq_ok.1 e4
        have g3 : Good s2 s3 := by
          have := Keeps.setField (c := c) (l := l) (type := type) (values := values) hi
          unfold Keeps at this
          rw [e5] at this
          exact this
        obtain ⟨w, ew, rfl⟩ := onCtx_ok e5
        obtain ⟨k1, k2, k3, k4, k5, k6, k7⟩ := ih g3.1 (h.trans g3.2) e6
        have key : ∀ o' ∈ o :: t, ∀ d i m, ctxOf s0 o' = some d → look s0 d name = some (i, m) →
            Context.setField m type values (s2.ctxs d) = .ok (s'.ctxs d) () := by
          intro o' ho' d i m hd hm
          by_cases hdc : d = c
          · subst hdc
            rw [hl] at hm
            simp only [Option.some.injEq, Prod.mk.injEq] at hm
            obtain ⟨rfl, rfl⟩ := hm
            by_cases hex : ∃ o'' ∈ t, ctxOf s0 o'' = some d
            · obtain ⟨o'', ho'', hd''⟩ := hex
              have := k5 o'' ho'' d j l hd'' hl
              simp only [Function.update_self] at this
              rw [setField_again ew] at this
              simp only [Out.ok.injEq, and_true] at this
              rw [ew, this]
            · have := k6 d fun o'' ho'' hd'' => absurd ⟨o'', ho'', hd''⟩ hex
              simp only [Function.update_self] at this
              rw [ew, this]
          · rcases List.mem_cons.1 ho' with rfl | ho'
            · rw [hx] at hd; cases hd; exact absurd rfl hdc
            · have := k5 o' ho' d i m hd hm
              simpa only [Function.update_of_ne hdc] using this
        refine ⟨k1, k2, k3, k4, key, fun d hd => ?_, fun o' ho' => ?_⟩
        · have hdc : d ≠ c := by
            rintro rfl
            rw [hd o (List.mem_cons_self ..) hx] at hl
            cases hl
          have := k6 d fun o' ho' => hd o' (List.mem_cons_of_mem _ ho')
          simpa only [Function.update_of_ne hdc] using this
        · rcases List.mem_cons.1 ho' with rfl | ho'
          · exact hcmp
          · exact k7 o' ho'

omit [DecidableEq β] in
theorem markSubs_ok {s s' : St β} {os : List Nat} (h : markSubs os s = .ok s' ()) :
    s'.ctxs = s.ctxs ∧ s'.qctx = s.qctx ∧ s'.groups = s.groups ∧ s'.fromOp = s.fromOp ∧
    ∀ o, s'.ops o = { s.ops o with update := (s.ops o).update || decide (o ∈ os) } := by
  induction os generalizing s with
  | nil =>
    simp only [markSubs, M.pure_apply, Out.ok.injEq, and_true] at h
    subst h
    exact ⟨rfl, rfl, rfl, rfl, fun o => by simp⟩
  | cons o t ih =>
    simp only [markSubs, modOp, M.bind_apply, Out.bind_ok] at h
    obtain ⟨k1, k2, k3, k4, k5⟩ := ih h
    refine ⟨k1, k2, k3, k4, fun o' => ?_⟩
    rw [k5 o']
    by_cases e : o' = o
    · subst e; simp
    · simp [Function.update_of_ne e, e]

omit [DecidableEq β] in
theorem corresponds_ok {s s' : St β} {o : Nat} {p : Option LPtr} {q : LPtr} (h : corresponds o p s = .ok s' q) :
    s' = s ∧ p = some q ∧ (s.fromOp q = true → q ∈ (s.ops o).labels) := by
  unfold corresponds at h
  simp only [getS, M.bind_apply, Out.bind_ok] at h
  cases p with
  | none => cases h
  | some p =>
    simp only [M.bind_apply, M.check_apply] at h
    split_ifs at h with hc
    · simp only [Out.bind_ok, M.pure_apply, Out.ok.injEq] at h
      obtain ⟨rfl, rfl⟩ := h
      exact ⟨rfl, rfl, hc⟩
    · cases h

theorem field_unique {s : St β} (hi : Inv s) {c j : Nat} {name : String} {l m : Label} (hl : look s c name = some (j, l))
    (hm : HasField s c name m) : m = l := by
  obtain ⟨x, hx, hj, hn⟩ := look_some hl
  obtain ⟨y, hy, hmem, hn'⟩ := hm
  rw [hx] at hy; cases hy
  obtain ⟨g, hg⟩ := hi.ctx c
  have h1 := hg.ginv.labels x hx
  have h2 := hg.ginv.nodup
  rw [← h1] at h2
  exact List.inj_on_of_nodup_map h2 hmem (List.mem_of_getElem? hj) (hn'.trans hn.symm)

omit [DecidableEq β] in
theorem has_look {s : St β} {c : Nat} {name : String} {m : Label} (hm : HasField s c name m) :
    ∃ j l, look s c name = some (j, l) := by
  cases h : look s c name with
  | none => exact absurd hm (look_none h m)
  | some y => exact ⟨y.1, y.2, rfl⟩

omit [DecidableEq β] in
theorem look_has {s : St β} {c j : Nat} {name : String} {m : Label} (hm : look s c name = some (j, m)) :
    HasField s c name m := by
  obtain ⟨x, hx, hj, hn⟩ := look_some hm
  exact ⟨x, hx, List.mem_of_getElem? hj, hn⟩

omit [DecidableEq β] in
theorem numSub_group {s : St β} {k : Nat} {g : Group} (h : s.groups[k]? = some g) : numSub (.group k) s = .ok s g.subs.length := by
  simp only [numSub, h]

omit [DecidableEq β] in
theorem subLabels_group {s : St β} {k : Nat} {g : Group} (h : s.groups[k]? = some g) : subLabels (.group k) s = .ok s g.subs := by
  simp only [subLabels, h]

omit [DecidableEq β] in
theorem scan_mem {s : St β} {name : String} {ps : List LPtr} {q : LPtr} (h : scan name ps s = .ok s (some q)) : q ∈ ps := by
  induction ps with
  | nil => cases h
  | cons a t ih =>
    simp only [scan, M.bind_apply] at h
    obtain ⟨s2, l, e1, e2⟩ := Out.bind_eq_ok.1 h
    split_ifs at e2
    · simp only [M.pure_apply, Out.ok.injEq, Option.some.injEq] at e2
      rw [← e2.2]; exact List.mem_cons_self ..
    · have := scan_same e2
      subst this
      exact List.mem_cons_of_mem _ (ih e2)

omit [DecidableEq β] in
theorem record_run' {s : St β} {o : Nat} (h : (s.ops o).labels.length ≤ (s.ops o).maxLabels) (p : LPtr) :
    ∃ s', record o p s = .ok s' () := by
  unfold record
  simp only [flag, getS, M.bind_apply, Out.bind_ok, modOp]
  have : (s.ops o).labels.length < if (s.ops o).labels.length = 0 then 1
      else if (s.ops o).labels.length = (s.ops o).maxLabels then 2 * (s.ops o).labels.length else (s.ops o).maxLabels := by
    split_ifs <;> omega
  rw [if_pos this]
  exact ⟨_, rfl⟩

theorem record_run {s : St β} (h : Inv s) (o : Nat) (p : LPtr) : ∃ s', record o p s = .ok s' () := record_run' (h.cap o) p

/-- The parts of a label made by a call. -/
theorem fresh {s0 s1 : St β} {o : Nat} {name : String} {p : LPtr} (hc : (s0.ops o).comp = true)
    (hg : getLabel o name s0 = .ok s1 (some p)) (hnew : p ∉ (s0.ops o).labels) :
    ∃ G, p = .group s0.groups.length ∧ s1.groups = s0.groups ++ [G] ∧ G.name = name ∧
      G.subs = (s0.ops o).subs.map (subOf s0 name) ∧ (∀ c, s1.ctxs c = s0.ctxs c) ∧ (s1.ops o).subs = (s0.ops o).subs ∧
      p ∈ (s1.ops o).labels ∧ (∃ i ∈ (s0.ops o).subs, fieldOf s0 name i ≠ none) ∧
      ∀ i ∈ (s0.ops o).subs, ∀ l, fieldOf s0 name i = some l → l.type = G.type := by
  rcases getLabel_ok hg with ⟨-, ⟨q, e1, rfl, e2⟩ | ⟨-, ⟨rfl, e2, -⟩ | ⟨m, G, hm, rfl, e2, k1, k2, k3, k4⟩⟩⟩ | ⟨hc', -⟩
  · cases e2
    exact absurd (scan_mem e1) hnew
  · cases e2
  · cases e2
    refine ⟨G, rfl, rfl, k1, k2, fun _ => rfl, ?_, ?_, k3, k4⟩
    · simp [recorded]
    · simp [recorded]
  · rw [hc] at hc'; cases hc'

/-- A label made by a call at `s0`, later. -/
theorem later {s0 s1 s : St β} (h0 : Reached s0) {o : Nat} (hc : (s0.ops o).comp = true) {name : String}
    {p : LPtr} (hg : getLabel o name s0 = .ok s1 (some p)) (hnew : p ∉ (s0.ops o).labels) (hr : Runs s1 s) :
    Inv s ∧ Later s0 s ∧ ∃ k G, p = .group k ∧ s.groups[k]? = some G ∧ G.subs = (s0.ops o).subs.map (subOf s0 name) ∧
      (s.ops o).comp = true ∧ p ∈ (s.ops o).labels := by
  have g1 : Good s0 s1 := by
    have := Keeps.getLabel (o := o) (name := name) h0.inv
    unfold Keeps at this
    rw [hg] at this
    exact this
  have g := hr.good g1.1
  obtain ⟨G, rfl, k1, k2, k3, k4, k5, k6, k7, k8⟩ := fresh hc hg hnew
  refine ⟨g.1, g1.2.trans g.2, _, G, rfl, ?_, k3, by rw [g.2.comp, g1.2.comp, hc], (g.2.labels o).subset k6⟩
  have h1 := g.2.groups
  rw [k1] at h1
  obtain ⟨t, ht⟩ := h1
  rw [← ht, List.getElem?_append_left (by simp)]
  simp

/-- Setting with a label made at `s0`. -/
theorem setLabel_group {s0 s : St β} {o k : Nat} {name : String} {G : Group} (hl : Later s0 s) (hG : s.groups[k]? = some G)
    (h3 : G.subs = (s0.ops o).subs.map (subOf s0 name)) (hc : (s.ops o).comp = true) (hm : LPtr.group k ∈ (s.ops o).labels)
    (type : FieldType) (values : Buf β) :
    setLabel o (some (.group k)) type values s =
      if (s.ops o).subs = (s0.ops o).subs then
        (setSubs type values (s0.ops o).subs ((s0.ops o).subs.map (subOf s0 name)) s).bind fun s' _ =>
          markSubs (s0.ops o).subs s'
      else .err s .unsupported := by
  have hk : corresponds o (some (.group k)) s = .ok s (.group k) := by
    simp only [corresponds, getS, M.bind_apply, Out.bind_ok, M.check_apply, M.pure_apply]
    rw [if_pos (fun _ => hm)]
    rfl
  unfold setLabel
  simp only [M.bind_apply, hk, Out.bind_ok, getS]
  rw [if_pos hc]
  simp only [M.bind_apply, numSub_group hG, Out.bind_ok, M.check_apply]
  have hiff : (s.ops o).subs.length = G.subs.length ↔ (s.ops o).subs = (s0.ops o).subs := by
    rw [h3, List.length_map]
    exact ⟨fun h => ((hl.subs o).eq_of_length h.symm).symm, fun h => by rw [h]⟩
  by_cases h : (s.ops o).subs = (s0.ops o).subs
  · rw [if_pos (hiff.2 h), if_pos h]
    simp only [Out.bind_ok, subLabels_group hG, h3, h]
  · rw [if_neg fun e => h (hiff.1 e), if_neg h]
    rfl

/-- Reading with a label made at `s0`. -/
theorem withLabel_group {γ : Type} {s0 s : St β} {o k : Nat} {name : String} {G : Group} (hl : Later s0 s)
    (hG : s.groups[k]? = some G)
    (h3 : G.subs = (s0.ops o).subs.map (subOf s0 name)) (hc : (s.ops o).comp = true) (hm : LPtr.group k ∈ (s.ops o).labels)
    (act : Label → M (World β) γ) :
    withLabel o (some (.group k)) act s =
      if (s.ops o).subs = (s0.ops o).subs then firstSub act (s0.ops o).subs ((s0.ops o).subs.map (subOf s0 name)) s
      else .err s .unsupported := by
  have hk : corresponds o (some (.group k)) s = .ok s (.group k) := by
    simp only [corresponds, getS, M.bind_apply, Out.bind_ok, M.check_apply, M.pure_apply]
    rw [if_pos (fun _ => hm)]
    rfl
  unfold withLabel
  simp only [M.bind_apply, hk, Out.bind_ok, getS]
  rw [if_pos hc]
  simp only [M.bind_apply, numSub_group hG, Out.bind_ok, M.check_apply]
  have hiff : (s.ops o).subs.length = G.subs.length ↔ (s.ops o).subs = (s0.ops o).subs := by
    rw [h3, List.length_map]
    exact ⟨fun h => ((hl.subs o).eq_of_length h.symm).symm, fun h => by rw [h]⟩
  by_cases h : (s.ops o).subs = (s0.ops o).subs
  · rw [if_pos (hiff.2 h), if_pos h]
    simp only [Out.bind_ok, subLabels_group hG, h3, h]
  · rw [if_neg fun e => h (hiff.1 e), if_neg h]
    rfl

/-- The loop succeeds when every field can be set. -/
theorem setSubs_run {s0 s : St β} {name : String} {type : FieldType} {values : Buf β} {os : List Nat} (hi : Inv s)
    (h : Later s0 s) (hs : ∀ o ∈ os, (s.ops o).comp = false)
    (hw : ∀ o ∈ os, ∀ c j l, ctxOf s0 o = some c → look s0 c name = some (j, l) →
      ∃ w', Context.setField l type values (s.ctxs c) = .ok w' ()) :
    ∃ s', setSubs type values os (os.map (subOf s0 name)) s = .ok s' () := by
  induction os generalizing s with
  | nil => exact ⟨s, rfl⟩
  | cons o t ih =>
    have hso := hs o (List.mem_cons_self ..)
    simp only [List.map_cons, setSubs, M.bind_apply, getContext_eq hso (hi.single o hso), Out.bind_ok]
    rw [h.ctxOf o]
    cases hx : ctxOf s0 o with
    | none =>
      exact ih hi h (fun o' ho' => hs o' (List.mem_cons_of_mem _ ho')) fun o' ho' => hw o' (List.mem_cons_of_mem _ ho')
    | some c =>
      cases hl : look s0 c name with
      | none =>
        have : subOf s0 name o = none := by unfold subOf; rw [hx]; simp [hl]
        rw [this]
        exact ih hi h (fun o' ho' => hs o' (List.mem_cons_of_mem _ ho')) fun o' ho' => hw o' (List.mem_cons_of_mem _ ho')
      | some y =>
        obtain ⟨j, l⟩ := y
        have : subOf s0 name o = some (c, j) := by unfold subOf; rw [hx]; simp [hl]
        rw [this]
        obtain ⟨w', hw'⟩ := hw o (List.mem_cons_self ..) c j l hx hl
        obtain ⟨x1, a, b, hx1, -⟩ := setField_inv hw'
        obtain ⟨x0, hx0, hl0, -⟩ := look_some hl
        have hd : deref c j s = .ok s l := by
          unfold deref
          rw [hx1]
          simp only [h.deref hx0 hx1 hl0]
        have ho : onCtx c (Context.setField l type values) s = .ok { s with ctxs := Function.update s.ctxs c w' } () := by
          unfold onCtx
          rw [hw']
        simp only [M.bind_apply, hd, Out.bind_ok, ho]
        have g3 : Good s { s with ctxs := Function.update s.ctxs c w' } := by
          have := Keeps.setField (c := c) (l := l) (type := type) (values := values) hi
          unfold Keeps at this
          rw [ho] at this
          exact this
        refine ih g3.1 (h.trans g3.2) (fun o' ho' => hs o' (List.mem_cons_of_mem _ ho')) fun o' ho' d i m hd hm => ?_
        by_cases hdc : d = c
        · subst hdc
          rw [hl] at hm
          simp only [Option.some.injEq, Prod.mk.injEq] at hm
          obtain ⟨rfl, rfl⟩ := hm
          exact ⟨w', by simpa only [Function.update_self] using setField_again hw'⟩
        · simpa only [Function.update_of_ne hdc] using hw o' (List.mem_cons_of_mem _ ho') d i m hd hm

omit [DecidableEq β] in
theorem markSubs_run (s : St β) (os : List Nat) : ∃ s', markSubs os s = .ok s' () := by
  induction os generalizing s with
  | nil => exact ⟨s, rfl⟩
  | cons o t ih =>
    simp only [markSubs, modOp, M.bind_apply, Out.bind_ok]
    exact ih _

/-! ## Setting -/

/-- Setting a field through a composite operator, with a label made at `s0` and used any time later, sets it in the context
of every sub-operator that had the field at `s0`, leaves every other context as it is, and marks the sub-operators'
assembled data as outdated. `Context.setField` is `CeedQFunctionContextSet*` on one context (C30). Missing from the full
property: sub-operators whose context gets the field after the label was made, see `C48_late_witness`. -/
theorem C48_set_partial {s0 s1 s s' : St β} (h0 : Reached s0) {o : Nat} (hc : (s0.ops o).comp = true) {name : String}
    {p : LPtr} (hg : getLabel o name s0 = .ok s1 (some p)) (hnew : p ∉ (s0.ops o).labels) (hr : Runs s1 s)
    {type : FieldType} {values : Buf β} (hs : setLabel o (some p) type values s = .ok s' ()) :
    (∀ r ∈ (s.ops o).subs, ∀ c l, ctxOf s r = some c → HasField s0 c name l →
      Context.setField l type values (s.ctxs c) = .ok (s'.ctxs c) ()) ∧
    (∀ c, (¬ ∃ r ∈ (s.ops o).subs, ∃ l, ctxOf s r = some c ∧ HasField s0 c name l) → s'.ctxs c = s.ctxs c) ∧
    (∀ r, s'.ops r = { s.ops r with update := (s.ops r).update || decide (r ∈ (s.ops o).subs) }) ∧
    s'.qctx = s.qctx := by
  obtain ⟨hi, hl, k, G, rfl, hG, h3, hc', hm⟩ := later h0 hc hg hnew hr
  rw [setLabel_group hl hG h3 hc' hm] at hs
  split_ifs at hs with hsub
  obtain ⟨s3, u, e3, e4⟩ := Out.bind_eq_ok.1 hs
  obtain ⟨m1, m2, m3, m4, m5, m6, m7⟩ := setSubs_ok hi hl e3
  obtain ⟨n1, n2, n3, n4, n5⟩ := markSubs_ok e4
  rw [hsub]
  refine ⟨fun r hr c l hx hf => ?_, fun c hn => ?_, fun r => ?_, n2.trans m1⟩
  · rw [hl.ctxOf] at hx
    obtain ⟨j, l', hl'⟩ := has_look hf
    obtain rfl := field_unique h0.inv hl' hf
    rw [n1]
    exact m5 r hr c j l hx hl'
  · rw [n1]
    refine m6 c fun r hr hx => ?_
    cases hf : look s0 c name with
    | none => rfl
    | some y => exact absurd ⟨r, hr, y.2, by rw [hl.ctxOf, hx], look_has (j := y.1) hf⟩ hn
  · rw [n5, m2]

/-- Setting succeeds when no sub-operator was added since the label was made and every field can be set in its context. -/
theorem C48_succeeds {s0 s1 s : St β} (h0 : Reached s0) {o : Nat} (hc : (s0.ops o).comp = true) {name : String}
    {p : LPtr} (hg : getLabel o name s0 = .ok s1 (some p)) (hnew : p ∉ (s0.ops o).labels) (hr : Runs s1 s)
    (hsub : (s.ops o).subs = (s0.ops o).subs) (hflat : ∀ r ∈ (s.ops o).subs, (s.ops r).comp = false)
    {type : FieldType} {values : Buf β}
    (hw : ∀ r ∈ (s.ops o).subs, ∀ c l, ctxOf s r = some c → HasField s0 c name l →
      ∃ w', Context.setField l type values (s.ctxs c) = .ok w' ()) :
    ∃ s', setLabel o (some p) type values s = .ok s' () := by
  obtain ⟨hi, hl, k, G, rfl, hG, h3, hc', hm⟩ := later h0 hc hg hnew hr
  rw [setLabel_group hl hG h3 hc' hm, if_pos hsub]
  rw [hsub] at hflat hw
  obtain ⟨s2, e2⟩ := setSubs_run (name := name) (type := type) (values := values) hi hl hflat fun r hr c j l hx hf =>
    hw r hr c l (by rw [hl.ctxOf, hx]) (look_has hf)
  obtain ⟨s', e'⟩ := markSubs_run s2 (s0.ops o).subs
  exact ⟨s', by rw [e2]; exact e'⟩

/-- The values set are the values read from each of the contexts. -/
theorem C48_reads {s0 s1 s s' : St β} (h0 : Reached s0) {o : Nat} (hc : (s0.ops o).comp = true) {name : String}
    {p : LPtr} (hg : getLabel o name s0 = .ok s1 (some p)) (hnew : p ∉ (s0.ops o).labels) (hr : Runs s1 s)
    {type : FieldType} {values : Buf β} (hs : setLabel o (some p) type values s = .ok s' ()) {r c : Nat} {l : Label}
    (hsub : r ∈ (s.ops o).subs) (hx : ctxOf s r = some c) (hf : HasField s0 c name l) :
    Context.FieldReads (s'.ctxs c) l type (l.size / type.bytes) values.val := by
  have h := (C48_set_partial h0 hc hg hnew hr hs).1 r hsub c l hx hf
  obtain ⟨x, a, b, hx, hd, hb, h1, h2⟩ := setField_inv h
  rw [Context.setField_eq hx l type values hd hb h1 h2] at h
  split_ifs at h with t1 t2 t3 t4
  · simp only [Out.ok.injEq, and_true] at h
    rw [← h]
    refine ⟨(s.ctxs c).setCtx (some { x with readers := x.readers + 1 }), a, b, ?_, hb, h1, fun i hi => (t3 i hi).symm⟩
    rw [Context.getField_eq hx, if_pos t1, if_pos t2, if_pos (by rw [hd]; rfl)]
    exact congrArg (fun d => Out.ok _ (_, d, _)) hd
  · simp only [Out.ok.injEq, and_true] at h
    rw [← h]
    refine ⟨((s.ctxs c).setBlk a (some (Context.patch b l.offset values l.size))).setCtx
      (some { x with state := x.state + 2, readers := x.readers + 1 }), a, Context.patch b l.offset values l.size, ?_,
      by simp, h1, fun i hi => ?_⟩
    · rw [Context.getField_eq (x := { x with state := x.state + 2 }) rfl, if_pos t1,
        if_pos (by show (x.state + 2) % 2 = 0; omega), if_pos (by show x.data.isSome; rw [hd]; rfl)]
      exact congrArg (fun d => Out.ok _ (_, d, _)) hd
    show _ = (if l.offset ≤ l.offset + i ∧ l.offset + i < l.offset + l.size then _ else _)
    rw [if_pos ⟨by omega, by omega⟩]
    congr 1; omega

/-- Setting through an operator without sub-operators sets the field in its context and nothing else. -/
theorem C48_single {s0 s1 s s' : St β} (h0 : Reached s0) {o : Nat} (hc : (s0.ops o).comp = false) {name : String}
    {p : LPtr} (hg : getLabel o name s0 = .ok s1 (some p)) (hr : Runs s1 s)
    {type : FieldType} {values : Buf β} (hs : setLabel o (some p) type values s = .ok s' ()) :
    ∃ c l, ctxOf s o = some c ∧ HasField s0 c name l ∧
      Context.setField l type values (s.ctxs c) = .ok (s'.ctxs c) () ∧
      (∀ d, d ≠ c → s'.ctxs d = s.ctxs d) ∧
      ∀ r, s'.ops r = { s.ops r with update := (s.ops r).update || decide (r = o) } := by
  have g1 : Good s0 s1 := by
    have := Keeps.getLabel (o := o) (name := name) h0.inv
    unfold Keeps at this
    rw [hg] at this
    exact this
  have g := hr.good g1.1
  have hl := g1.2.trans g.2
  rcases getLabel_ok hg with ⟨hc', -⟩ | ⟨-, ⟨-, e, -⟩ | ⟨c, j, l, m, -, hx, hf, -, e⟩⟩
  · rw [hc] at hc'; cases hc'
  · cases e
  cases e
  unfold setLabel at hs
  simp only [M.bind_apply] at hs
  obtain ⟨s2, q, e1, e2⟩ := Out.bind_eq_ok.1 hs
  obtain ⟨rfl, hq, -⟩ := corresponds_ok e1
  simp only [Option.some.injEq] at hq
  subst hq
  have hcs : (s2.ops o).comp = false := by rw [hl.comp, hc]
  simp only [getS, Out.bind_ok] at e2
  rw [if_neg (by rw [hcs]; simp)] at e2
  simp only [M.bind_apply, getContext_eq hcs (g.1.single o hcs), Out.bind_ok, hl.ctxOf, hx, readLabel] at e2
  obtain ⟨s3, l', e3, e4⟩ := Out.bind_eq_ok.1 e2
  obtain ⟨rfl, x1, hx1, hl1⟩ := deref_ok e3
  obtain ⟨x0, hx0, hl0, -⟩ := look_some hf
  have hll := hl.deref hx0 hx1 hl0
  rw [hl1] at hll
  cases hll
  obtain ⟨s4, u, e5, e6⟩ := Out.bind_eq_ok.1 e4
  obtain ⟨w, ew, rfl⟩ := onCtx_ok e5
  obtain ⟨n1, n2, n3, n4, n5⟩ := markSubs_ok e6
  refine ⟨c, l, by rw [hl.ctxOf, hx], look_has hf, ?_, fun d hd => ?_, fun r => ?_⟩
  · rw [n1, ew]; simp only [Function.update_self]
  · rw [n1]; simp only [Function.update_of_ne hd]
  · rw [n5]; simp only [List.mem_singleton]

/-! ## Refusals -/

/-- A label handed out for one operator is refused by every other operator, unless both are operators without
sub-operators on the same context. -/
theorem C48_foreign {s0 s1 s : St β} (h0 : Reached s0) {a b : Nat} {name : String} {p : LPtr}
    (hg : getLabel a name s0 = .ok s1 (some p)) (hr : Runs s1 s) (hab : a ≠ b) (type : FieldType) (values : Buf β) :
    (setLabel b (some p) type values s = .err s .unsupported ∧ getRead b (some p) type s = .err s .unsupported ∧
      restoreRead b (some p) type s = .err s .unsupported) ∨
    ((s.ops a).comp = false ∧ (s.ops b).comp = false ∧ ∃ c, ctxOf s a = some c ∧ ctxOf s b = some c) := by
  have g1 : Good s0 s1 := by
    have := Keeps.getLabel (o := a) (name := name) h0.inv
    unfold Keeps at this
    rw [hg] at this
    exact this
  have g := hr.good g1.1
  have hm : p ∈ (s1.ops a).labels := by
    have i0 := h0.inv
    rcases getLabel_ok hg with ⟨-, ⟨q, e1, rfl, e2⟩ | ⟨-, ⟨rfl, e2, -⟩ | ⟨m, G, -, rfl, e2, -⟩⟩⟩ | ⟨-, ⟨-, e, -⟩ | ⟨c, j, l, m, -, -, -, rfl, e⟩⟩
    · cases e2
      exact scan_mem e1
    · cases e2
    · cases e2; simp [recorded]
    · cases e
    · cases e; simp [recorded]
  have hms := (g.2.labels a).subset hm
  have hfl := g.1.flags a p hms
  by_cases hb : p ∈ (s.ops b).labels
  · right
    cases p with
    | group k => exact absurd (g.1.owner a b k hms hb) hab
    | field c j =>
      obtain ⟨h1, h2⟩ := g.1.fvalid a c j hms
      obtain ⟨h3, h4⟩ := g.1.fvalid b c j hb
      exact ⟨h1, h3, c, h2, h4⟩
  · left
    have hk : corresponds b (some p) s = .err s .unsupported := by
      simp only [corresponds, getS, M.bind_apply, Out.bind_ok, M.check_apply]
      rw [if_neg fun h => hb (h hfl)]
      rfl
    refine ⟨?_, ?_, ?_⟩
    · unfold setLabel
      simp only [M.bind_apply, hk, Out.bind_err]
    · unfold getRead withLabel
      simp only [M.bind_apply, hk, Out.bind_err]
    · unfold restoreRead withLabel
      simp only [M.bind_apply, hk, Out.bind_err]

/-- The null label, which stands for a field no sub-operator has, is refused. -/
theorem C48_null (s : St β) (o : Nat) (type : FieldType) (values : Buf β) :
    setLabel o none type values s = .err s .unsupported ∧ getRead o none type s = .err s .unsupported ∧
      restoreRead o none type s = .err s .unsupported :=
  ⟨rfl, rfl, rfl⟩

/-- A label made before another sub-operator was added is refused. -/
theorem C48_outdated {s0 s1 s : St β} (h0 : Reached s0) {o : Nat} (hc : (s0.ops o).comp = true) {name : String}
    {p : LPtr} (hg : getLabel o name s0 = .ok s1 (some p)) (hnew : p ∉ (s0.ops o).labels) (hr : Runs s1 s)
    (hsub : (s.ops o).subs ≠ (s0.ops o).subs) (type : FieldType) (values : Buf β) :
    setLabel o (some p) type values s = .err s .unsupported ∧ getRead o (some p) type s = .err s .unsupported ∧
      restoreRead o (some p) type s = .err s .unsupported := by
  obtain ⟨hi, hl, k, G, rfl, hG, h3, hc', hm⟩ := later h0 hc hg hnew hr
  refine ⟨?_, ?_, ?_⟩
  · rw [setLabel_group hl hG h3 hc' hm, if_neg hsub]
  · exact (withLabel_group hl hG h3 hc' hm _).trans (if_neg hsub)
  · exact (withLabel_group hl hG h3 hc' hm _).trans (if_neg hsub)

/-- Setting with the wrong type is refused and changes nothing. -/
theorem C48_type {s0 s1 s : St β} (h0 : Reached s0) {o : Nat} (hc : (s0.ops o).comp = true) {name : String}
    {p : LPtr} (hg : getLabel o name s0 = .ok s1 (some p)) (hnew : p ∉ (s0.ops o).labels) (hr : Runs s1 s)
    (hflat : ∀ r ∈ (s.ops o).subs, (s.ops r).comp = false) (hlive : ∀ c, (s.ctxs c).ctx ≠ none)
    {r c : Nat} {l : Label} (hsub : r ∈ (s0.ops o).subs) (hx : ctxOf s0 r = some c) (hf : HasField s0 c name l)
    {type : FieldType} (ht : l.type ≠ type) (values : Buf β) :
    setLabel o (some p) type values s = .err s .unsupported := by
  have hall : ∀ i ∈ (s0.ops o).subs, ∀ m, fieldOf s0 name i = some m → m.type = l.type := by
    obtain ⟨G, -, -, -, -, -, -, -, -, k8⟩ := fresh hc hg hnew
    obtain ⟨j, l', hl'⟩ := has_look hf
    obtain rfl := field_unique h0.inv hl' hf
    have := k8 r hsub l (by unfold fieldOf; rw [hx]; simp [hl'])
    intro i hi m hm
    rw [k8 i hi m hm, this]
  obtain ⟨hi, hl, k, G, rfl, hG, h3, hc', hm⟩ := later h0 hc hg hnew hr
  rw [setLabel_group hl hG h3 hc' hm]
  split_ifs with hss
  swap
  · rfl
  rw [hss] at hflat
  have main : ∀ os : List Nat, (∀ i ∈ os, (s.ops i).comp = false) → (∀ i ∈ os, ∀ m, fieldOf s0 name i = some m → m.type = l.type) →
      (∃ i ∈ os, fieldOf s0 name i ≠ none) → setSubs type values os (os.map (subOf s0 name)) s = .err s .unsupported := by
    intro os
    induction os with
    | nil => rintro - - ⟨i, hi, -⟩; cases hi
    | cons i t ih =>
      intro h1 h2 h4
      have hsi := h1 i (List.mem_cons_self ..)
      simp only [List.map_cons, setSubs, M.bind_apply, getContext_eq hsi (hi.single i hsi), Out.bind_ok]
      rw [hl.ctxOf i]
      have next : fieldOf s0 name i = none → setSubs type values t (t.map (subOf s0 name)) s = .err s .unsupported := by
        intro hn
        refine ih (fun i' hi' => h1 i' (List.mem_cons_of_mem _ hi')) (fun i' hi' => h2 i' (List.mem_cons_of_mem _ hi')) ?_
        obtain ⟨i', hi', hne⟩ := h4
        rcases List.mem_cons.1 hi' with rfl | hi'
        · exact absurd hn hne
        · exact ⟨i', hi', hne⟩
      cases hxi : ctxOf s0 i with
      | none => exact next (by unfold fieldOf; rw [hxi])
      | some d =>
        cases hfi : look s0 d name with
        | none =>
          have : subOf s0 name i = none := by unfold subOf; rw [hxi]; simp [hfi]
          rw [this]
          exact next (by unfold fieldOf; rw [hxi]; simp [hfi])
        | some y =>
          obtain ⟨j, m⟩ := y
          have : subOf s0 name i = some (d, j) := by unfold subOf; rw [hxi]; simp [hfi]
          rw [this]
          have hty := h2 i (List.mem_cons_self ..) m (by unfold fieldOf; rw [hxi]; simp [hfi])
          obtain ⟨x1, hx1⟩ := Option.ne_none_iff_exists'.1 (hlive d)
          obtain ⟨x0, hx0, hl0, -⟩ := look_some hfi
          have hd : deref d j s = .ok s m := by
            unfold deref
            rw [hx1]
            simp only [hl.deref hx0 hx1 hl0]
          have ho : onCtx d (Context.setField m type values) s = .err s .unsupported := by
            unfold onCtx
            rw [(Context.C30_type_mismatch (hlive d) (by rw [hty]; exact ht) values).1]
            simp only [Function.update_eq_self]
          simp only [M.bind_apply, hd, Out.bind_ok, ho, Out.bind_err]
  rw [main _ hflat hall ⟨r, hsub, ?_⟩]
  · rfl
  · obtain ⟨j, l', hl'⟩ := has_look hf
    unfold fieldOf
    rw [hx]
    simp [hl']

/-! ## Reading -/

/-- What the loop for reading does. -/
theorem firstSub_ok {γ : Type} {s0 s s' : St β} {name : String} {act : Label → M (World β) γ} {os : List Nat} {res : Option γ}
    (hi : Inv s) (h : Later s0 s) (he : firstSub act os (os.map (subOf s0 name)) s = .ok s' res) :
    (s' = s ∧ res = none ∧ ∀ r ∈ os, fieldOf s0 name r = none) ∨
    ∃ pre r post c l a, os = pre ++ r :: post ∧ (∀ i ∈ pre, fieldOf s0 name i = none) ∧ ctxOf s0 r = some c ∧
      HasField s0 c name l ∧ res = some a ∧ act l (s.ctxs c) = .ok (s'.ctxs c) a ∧
      s' = { s with ctxs := Function.update s.ctxs c (s'.ctxs c) } := by
  induction os with
  | nil =>
    simp only [List.map_nil, firstSub, M.pure_apply, Out.ok.injEq] at he
    exact .inl ⟨he.1.symm, he.2.symm, by simp⟩
  | cons o t ih =>
    simp only [List.map_cons, firstSub, M.bind_apply] at he
    obtain ⟨s1, x, e1, e2⟩ := Out.bind_eq_ok.1 he
    obtain ⟨rfl, rfl, hcmp⟩ := getContext_ok e1
    rw [h.ctxOf o] at e2
    have next : fieldOf s0 name o = none → firstSub act t (t.map (subOf s0 name)) s1 = .ok s' res →
        (s' = s1 ∧ res = none ∧ ∀ r ∈ o :: t, fieldOf s0 name r = none) ∨
        ∃ pre r post c l a, o :: t = pre ++ r :: post ∧ (∀ i ∈ pre, fieldOf s0 name i = none) ∧ ctxOf s0 r = some c ∧
          HasField s0 c name l ∧ res = some a ∧ act l (s1.ctxs c) = .ok (s'.ctxs c) a ∧
          s' = { s1 with ctxs := Function.update s1.ctxs c (s'.ctxs c) } := by
      intro hn he'
      rcases ih he' with ⟨k1, k2, k3⟩ | ⟨pre, r, post, c, l, a, k1, k2, k3⟩
      · refine .inl ⟨k1, k2, fun r hr => ?_⟩
        rcases List.mem_cons.1 hr with rfl | hr
        · exact hn
        · exact k3 r hr
      · refine .inr ⟨o :: pre, r, post, c, l, a, by rw [k1]; rfl, fun i hi => ?_, k3⟩
        rcases List.mem_cons.1 hi with rfl | hi
        · exact hn
        · exact k2 i hi
    cases hx : ctxOf s0 o with
    | none =>
      rw [hx] at e2
      exact next (by unfold fieldOf; rw [hx]) e2
    | some c =>
      rw [hx] at e2
      cases hl : look s0 c name with
      | none =>
        have : subOf s0 name o = none := by unfold subOf; rw [hx]; simp [hl]
        rw [this] at e2
        exact next (by unfold fieldOf; rw [hx]; simp [hl]) e2
      | some y =>
        obtain ⟨j, l⟩ := y
        have : subOf s0 name o = some (c, j) := by unfold subOf; rw [hx]; simp [hl]
        rw [this] at e2
        simp only [M.bind_apply] at e2
        obtain ⟨s2, l', e3, e4⟩ := Out.bind_eq_ok.1 e2
        obtain ⟨rfl, x1, hx1, hl1⟩ := deref_ok e3
        obtain ⟨x0, hx0, hl0, -⟩ := look_some hl
        have hll := h.deref hx0 hx1 hl0
        rw [hl1] at hll
        cases hll
        obtain ⟨s3, a, e5, e6⟩ := Out.bind_eq_ok.1 e4
        obtain ⟨w, ew, rfl⟩ := onCtx_ok e5
        simp only [M.pure_apply, Out.ok.injEq] at e6
        obtain ⟨rfl, rfl⟩ := e6
        refine .inr ⟨[], o, t, c, l, a, rfl, by simp, hx, look_has hl, rfl, ?_, ?_⟩
        · simp only [Function.update_self]; exact ew
        · simp only [Function.update_self]

omit [DecidableEq β] in
theorem fieldOf_none {s : St β} {name : String} {r : Nat} : fieldOf s name r = none ↔
    ∀ c l, ctxOf s r = some c → ¬ HasField s c name l := by
  unfold fieldOf
  constructor
  · intro h c l hx hf
    rw [hx] at h
    obtain ⟨j, l', hl'⟩ := has_look hf
    simp [hl'] at h
  · intro h
    cases hx : ctxOf s r with
    | none => rfl
    | some c =>
      cases hl : look s c name with
      | none => simp [hl]
      | some y => exact absurd (look_has (j := y.1) hl) (h c y.2 hx)

/-- Reading through a composite operator reads from the first sub-operator that has the field, and touches no other
context. -/
theorem C48_first {s0 s1 s s' : St β} (h0 : Reached s0) {o : Nat} (hc : (s0.ops o).comp = true) {name : String}
    {p : LPtr} (hg : getLabel o name s0 = .ok s1 (some p)) (hnew : p ∉ (s0.ops o).labels) (hr : Runs s1 s)
    {type : FieldType} {res : Option (Nat × Option Nat × Nat)} (hs : getRead o (some p) type s = .ok s' res) :
    ∃ pre r post c l a, (s.ops o).subs = pre ++ r :: post ∧
      (∀ i ∈ pre, ∀ d m, ctxOf s i = some d → ¬ HasField s0 d name m) ∧ ctxOf s r = some c ∧ HasField s0 c name l ∧
      res = some a ∧ Context.getField l type (s.ctxs c) = .ok (s'.ctxs c) a ∧ ∀ d, d ≠ c → s'.ctxs d = s.ctxs d := by
  obtain ⟨G, -, -, -, -, -, -, -, ⟨i, hi1, hi2⟩, -⟩ := fresh hc hg hnew
  obtain ⟨hi, hl, k, G, rfl, hG, h3, hc', hm⟩ := later h0 hc hg hnew hr
  rw [getRead, withLabel_group hl hG h3 hc' hm] at hs
  split_ifs at hs with hsub
  rcases firstSub_ok hi hl hs with ⟨-, -, hn⟩ | ⟨pre, r, post, c, l, a, k1, k2, k3, k4, k5, k6, k7⟩
  · exact absurd (hn i hi1) hi2
  · refine ⟨pre, r, post, c, l, a, hsub.trans k1, fun i hi d m hx => ?_, by rw [hl.ctxOf, k3], k4, k5, k6, fun d hd => ?_⟩
    · rw [hl.ctxOf] at hx
      exact fieldOf_none.1 (k2 i hi) d m hx
    · rw [k7]; simp only [Function.update_of_ne hd]

/-- Restoring gives back the access to the same context. -/
theorem C48_restore {s0 s1 s s' : St β} (h0 : Reached s0) {o : Nat} (hc : (s0.ops o).comp = true) {name : String}
    {p : LPtr} (hg : getLabel o name s0 = .ok s1 (some p)) (hnew : p ∉ (s0.ops o).labels) (hr : Runs s1 s)
    {type : FieldType} {res : Option Unit} (hs : restoreRead o (some p) type s = .ok s' res) :
    ∃ pre r post c l a, (s.ops o).subs = pre ++ r :: post ∧
      (∀ i ∈ pre, ∀ d m, ctxOf s i = some d → ¬ HasField s0 d name m) ∧ ctxOf s r = some c ∧ HasField s0 c name l ∧
      res = some a ∧ Context.restoreField l type (s.ctxs c) = .ok (s'.ctxs c) a ∧ ∀ d, d ≠ c → s'.ctxs d = s.ctxs d := by
  obtain ⟨G, -, -, -, -, -, -, -, ⟨i, hi1, hi2⟩, -⟩ := fresh hc hg hnew
  obtain ⟨hi, hl, k, G, rfl, hG, h3, hc', hm⟩ := later h0 hc hg hnew hr
  rw [restoreRead, withLabel_group hl hG h3 hc' hm] at hs
  split_ifs at hs with hsub
  rcases firstSub_ok hi hl hs with ⟨-, -, hn⟩ | ⟨pre, r, post, c, l, a, k1, k2, k3, k4, k5, k6, k7⟩
  · exact absurd (hn i hi1) hi2
  · refine ⟨pre, r, post, c, l, a, hsub.trans k1, fun i hi d m hx => ?_, by rw [hl.ctxOf, k3], k4, k5, k6, fun d hd => ?_⟩
    · rw [hl.ctxOf] at hx
      exact fieldOf_none.1 (k2 i hi) d m hx
    · rw [k7]; simp only [Function.update_of_ne hd]

/-! ## Labels -/

omit [DecidableEq β] in
/-- The name of a label of a composite operator. -/
def gname (s : St β) : LPtr → Option String
  | .field _ _ => none
  | .group k => (s.groups[k]?).map Group.name

omit [DecidableEq β] in
theorem scan_eq {s : St β} {name : String} {ps : List LPtr} (h : ∀ p ∈ ps, ∃ k g, p = .group k ∧ s.groups[k]? = some g) :
    scan name ps s = .ok s (ps.find? fun p => decide (gname s p = some name)) := by
  induction ps with
  | nil => rfl
  | cons p t ih =>
    obtain ⟨k, g, rfl, hk⟩ := h p (List.mem_cons_self ..)
    have hrd : readLabel (.group k) s = .ok s ⟨g.name, "", g.type, 0, g.numValues, 0⟩ := by simp only [readLabel, hk]
    have hgn : gname s (.group k) = some g.name := by simp [gname, hk]
    simp only [scan, M.bind_apply, hrd, Out.bind_ok]
    by_cases e : g.name = name
    · rw [if_pos e, List.find?_cons_of_pos (by simp [hgn, e])]
      rfl
    · rw [if_neg e, List.find?_cons_of_neg (by simp [hgn, e])]
      exact ih fun q hq => h q (List.mem_cons_of_mem _ hq)

omit [DecidableEq β] in
theorem gname_grow {s s' : St β} (h : s.groups <+: s'.groups) {k : Nat} {g : Group} (hk : s.groups[k]? = some g) :
    gname s' (.group k) = gname s (.group k) := by
  obtain ⟨t, ht⟩ := h
  simp only [gname]
  rw [← ht, List.getElem?_append_left]
  by_contra hlt
  rw [List.getElem?_eq_none (by omega)] at hk
  cases hk

omit [DecidableEq β] in
theorem find_grow {s s' : St β} (h : s.groups <+: s'.groups) (name : String) {ps : List LPtr}
    (hp : ∀ p ∈ ps, ∃ k g, p = .group k ∧ s.groups[k]? = some g) :
    ps.find? (fun p => decide (gname s' p = some name)) = ps.find? (fun p => decide (gname s p = some name)) := by
  induction ps with
  | nil => rfl
  | cons p t ih =>
    obtain ⟨k, g, rfl, hk⟩ := hp p (List.mem_cons_self ..)
    have e := gname_grow h hk
    have ih' := ih fun q hq => hp q (List.mem_cons_of_mem _ hq)
    by_cases hn : gname s (.group k) = some name
    · rw [List.find?_cons_of_pos (by simp [e, hn]), List.find?_cons_of_pos (by simp [hn])]
    · rw [List.find?_cons_of_neg (by simp [e, hn]), List.find?_cons_of_neg (by simp [hn]), ih']

theorem Inv.groupLabels {s : St β} (h : Inv s) {o : Nat} (hc : (s.ops o).comp = true) :
    ∀ p ∈ (s.ops o).labels, ∃ k g, p = .group k ∧ s.groups[k]? = some g := by
  intro p hp
  cases p with
  | field c j => rw [(h.fvalid o c j hp).1] at hc; cases hc
  | group k =>
    obtain ⟨-, g, hg, -⟩ := h.gvalid o k hp
    exact ⟨k, g, rfl, hg⟩

/-- Asking a composite operator for the same field again, any time later, gives the same label and changes nothing. -/
theorem C48_same {s0 s1 s : St β} (h0 : Reached s0) {o : Nat} (hc : (s0.ops o).comp = true) {name : String}
    {p : LPtr} (hg : getLabel o name s0 = .ok s1 (some p)) (hr : Runs s1 s) : getLabel o name s = .ok s (some p) := by
  have i0 := h0.inv
  have g1 : Good s0 s1 := by
    have := Keeps.getLabel (o := o) (name := name) i0
    unfold Keeps at this
    rw [hg] at this
    exact this
  have g := hr.good g1.1
  have hc1 : (s1.ops o).comp = true := by rw [g1.2.comp, hc]
  have hcs : (s.ops o).comp = true := by rw [g.2.comp, hc1]
  have hf1 : (s1.ops o).labels.find? (fun q => decide (gname s1 q = some name)) = some p := by
    rcases getLabel_ok hg with ⟨-, ⟨q, e1, rfl, e2⟩ | ⟨e1, ⟨-, e2, -⟩ | ⟨m, G, -, rfl, e2, hn, -⟩⟩⟩ | ⟨hc', -⟩
    · cases e2
      rw [scan_eq (i0.groupLabels hc)] at e1
      simp only [Out.ok.injEq, true_and] at e1
      exact e1
    · cases e2
    · cases e2
      rw [scan_eq (i0.groupLabels hc)] at e1
      simp only [Out.ok.injEq, true_and] at e1
      have e3 : (recorded { s0 with groups := s0.groups ++ [G] } o (.group s0.groups.length) m).ops o =
          { s0.ops o with labels := (s0.ops o).labels ++ [.group s0.groups.length], maxLabels := m } := by simp [recorded]
      rw [e3]
      simp only [List.find?_append]
      rw [find_grow (s := s0) g1.2.groups name (i0.groupLabels hc), e1]
      simp [gname, recorded, hn]
    · rw [hc] at hc'; cases hc'
  have hf : (s.ops o).labels.find? (fun q => decide (gname s q = some name)) = some p := by
    obtain ⟨t, ht⟩ := g.2.labels o
    rw [← ht, List.find?_append, find_grow g.2.groups name (g1.1.groupLabels hc1), hf1]
    rfl
  unfold getLabel
  simp only [getS, M.bind_apply, Out.bind_ok]
  rw [if_pos hcs, M.bind_apply, scan_eq (g.1.groupLabels hcs), hf]
  rfl

/-- After another sub-operator was added there is no way left to set the field: the only label the operator hands out is
the outdated one, which is refused. -/
theorem C48_stale {s0 s1 s : St β} (h0 : Reached s0) {o : Nat} (hc : (s0.ops o).comp = true) {name : String}
    {p : LPtr} (hg : getLabel o name s0 = .ok s1 (some p)) (hnew : p ∉ (s0.ops o).labels) (hr : Runs s1 s)
    (hsub : (s.ops o).subs ≠ (s0.ops o).subs) {s2 : St β} {q : Option LPtr} (hq : getLabel o name s = .ok s2 q)
    (type : FieldType) (values : Buf β) : setLabel o q type values s2 = .err s2 .unsupported := by
  rw [C48_same h0 hc hg hr] at hq
  cases hq
  exact (C48_outdated h0 hc hg hnew hr hsub type values).1

/-- A composite operator has a label for a field if and only if one of its sub-operators has the field: a null label is
given only when none has it, a new label only when one does. -/
theorem C48_found {s0 s1 : St β} {o : Nat} (hc : (s0.ops o).comp = true) {name : String} {res : Option LPtr}
    (hg : getLabel o name s0 = .ok s1 res) :
    (res = none → s1 = s0 ∧ ∀ r ∈ (s0.ops o).subs, ∀ c l, ctxOf s0 r = some c → ¬ HasField s0 c name l) ∧
    ∀ p, res = some p → p ∉ (s0.ops o).labels → ∃ r ∈ (s0.ops o).subs, ∃ c l, ctxOf s0 r = some c ∧ HasField s0 c name l := by
  refine ⟨?_, ?_⟩
  · rintro rfl
    rcases getLabel_ok hg with ⟨-, ⟨q, -, -, e2⟩ | ⟨-, ⟨rfl, -, hn⟩ | ⟨m, G, -, -, e2, -⟩⟩⟩ | ⟨hc', -⟩
    · cases e2
    · exact ⟨rfl, fun r hr => fieldOf_none.1 (hn r hr)⟩
    · cases e2
    · rw [hc] at hc'; cases hc'
  · rintro p rfl hnew
    obtain ⟨-, -, -, -, -, -, -, -, ⟨r, hr, hne⟩, -⟩ := fresh hc hg hnew
    rw [Ne, fieldOf_none] at hne
    push Not at hne
    obtain ⟨c, l, h1, h2⟩ := hne
    exact ⟨r, hr, c, l, h1, h2⟩

/-- An operator without sub-operators has a label for the fields of its context. -/
theorem C48_single_found {s : St β} (h : Reached s) {o : Nat} (hc : (s.ops o).comp = false)
    (hlive : ∀ c, ctxOf s o = some c → (s.ctxs c).ctx ≠ none) (name : String) :
    ∃ s' res, getLabel o name s = .ok s' res ∧
      (res = none ↔ ∀ c l, ctxOf s o = some c → ¬ HasField s c name l) := by
  have hi := h.inv
  unfold getLabel
  simp only [getS, M.bind_apply, Out.bind_ok]
  rw [if_neg (by rw [hc]; simp), ownLabel]
  simp only [M.bind_apply, getContext_eq hc (hi.single o hc), Out.bind_ok]
  cases hx : ctxOf s o with
  | none => exact ⟨s, none, rfl, by simp⟩
  | some c =>
    simp only [M.bind_apply, findField_eq name (hlive c hx), Out.bind_ok]
    cases hl : look s c name with
    | none => exact ⟨s, none, rfl, ⟨fun _ d l hd => by cases hd; exact look_none hl l, fun _ => rfl⟩⟩
    | some y =>
      obtain ⟨j, l⟩ := y
      obtain ⟨s', e'⟩ := record_run hi o (.field c j)
      simp only [M.bind_apply, e', Out.bind_ok]
      exact ⟨s', some (.field c j), rfl, by simpa using ⟨l, look_has hl⟩⟩

/-- A composite operator gives an answer, null or not, when its sub-operators have no sub-operators themselves, their
contexts exist, and the fields of that name have the same type and number of values everywhere. -/
theorem C48_answers {s : St β} (h : Reached s) {o : Nat} (hc : (s.ops o).comp = true) {name : String}
    (hflat : ∀ r ∈ (s.ops o).subs, (s.ops r).comp = false)
    (hlive : ∀ r ∈ (s.ops o).subs, ∀ c, ctxOf s r = some c → (s.ctxs c).ctx ≠ none) {t : FieldType} {n : Nat}
    (hsame : ∀ r ∈ (s.ops o).subs, ∀ c l, ctxOf s r = some c → HasField s c name l → l.type = t ∧ l.numValues = n) :
    ∃ s' res, getLabel o name s = .ok s' res := by
  have hi := h.inv
  unfold getLabel
  simp only [getS, M.bind_apply, Out.bind_ok]
  rw [if_pos hc, M.bind_apply, scan_eq (hi.groupLabels hc)]
  simp only [Out.bind_ok]
  cases (s.ops o).labels.find? (fun p => decide (gname s p = some name)) with
  | some p => exact ⟨s, some p, rfl⟩
  | none =>
    dsimp only
    have main : ∀ (os : List Nat) (acc : List (Option (Nat × Nat))) (g : Option Group), (∀ r ∈ os, r ∈ (s.ops o).subs) →
        (∀ g0, g = some g0 → g0.type = t ∧ g0.numValues = n) → ∃ r, build name os acc g s = .ok s r := by
      intro os
      induction os with
      | nil => intro acc g _ _; exact ⟨_, rfl⟩
      | cons r u ih =>
        intro acc g hsub hgt
        have hr := hsub r (List.mem_cons_self ..)
        have hu : ∀ i ∈ u, i ∈ (s.ops o).subs := fun i hi => hsub i (List.mem_cons_of_mem _ hi)
        obtain ⟨q, hq⟩ := Option.ne_none_iff_exists'.1 (hi.single r (hflat r hr))
        have hcx : ctxOf s r = s.qctx q := by unfold ctxOf; rw [hq]
        simp only [build, getS, M.bind_apply, Out.bind_ok, hq]
        cases hx : s.qctx q with
        | none => exact ih _ _ hu hgt
        | some c =>
          rw [hx] at hcx
          simp only [M.bind_apply, findField_eq name (hlive r hr c hcx), Out.bind_ok]
          cases hl : look s c name with
          | none => exact ih _ _ hu hgt
          | some y =>
            obtain ⟨j, l⟩ := y
            obtain ⟨ht, hn⟩ := hsame r hr c l hcx (look_has hl)
            have hj : ∃ g', joinGroup g l s = .ok s g' ∧ g'.type = t ∧ g'.numValues = n := by
              cases g with
              | none => exact ⟨_, rfl, ht, hn⟩
              | some g0 =>
                obtain ⟨h1, h2⟩ := hgt g0 rfl
                refine ⟨⟨l.name, l.type, l.numValues, g0.subs⟩, ?_, ht, hn⟩
                unfold joinGroup
                dsimp only
                rw [if_neg (by rw [h1, ht]; simp), if_neg (by rw [h2, hn]; simp)]
                rfl
            obtain ⟨g', e1, e2, e3⟩ := hj
            simp only [M.bind_apply, e1, Out.bind_ok]
            exact ih _ _ hu fun g0 hg0 => by cases hg0; exact ⟨e2, e3⟩
    obtain ⟨r, e⟩ := main (s.ops o).subs [] none (fun _ h => h) (by simp)
    simp only [makeGroup, getS, M.bind_apply, Out.bind_ok, e]
    cases hr2 : r.2 with
    | none => exact ⟨s, none, rfl⟩
    | some g =>
      simp only [M.bind_apply, pushGroup, Out.bind_ok]
      obtain ⟨m, hm⟩ := record_run' (s := { s with groups := s.groups ++ [{ g with subs := r.1 }] }) (o := o)
        (hi.cap o) (.group s.groups.length)
      simp only [hm, Out.bind_ok]
      exact ⟨_, _, rfl⟩

omit [DecidableEq β] in
/-- A composite takes at most sixteen sub-operators, in the order of the calls; any other call is refused without effect. -/
theorem C48_add (s : St β) (c o : Nat) (fits : Bool) :
    if (s.ops c).comp = true ∧ (s.ops c).subs.length < 16 ∧ fits = true then
      ∃ s', addSub c o fits s = .ok s' () ∧ (s'.ops c).subs = (s.ops c).subs ++ [o] ∧ (s'.ops c).labels = (s.ops c).labels ∧
        (∀ k, k ≠ c → s'.ops k = s.ops k) ∧ s'.ctxs = s.ctxs ∧ s'.groups = s.groups
    else ∃ e, addSub c o fits s = .err s e := by
  unfold addSub
  simp only [getS, M.bind_apply, Out.bind_ok, M.check_apply]
  by_cases h1 : (s.ops c).comp = true
  swap
  · rw [if_neg fun h => h1 h.1, if_neg h1]; exact ⟨_, rfl⟩
  by_cases h2 : (s.ops c).subs.length < 16
  swap
  · rw [if_neg fun h => h2 h.2.1, if_pos h1, Out.bind_ok, if_neg h2]; exact ⟨_, rfl⟩
  by_cases h3 : fits = true
  swap
  · rw [if_neg fun h => h3 h.2.2, if_pos h1, Out.bind_ok, if_pos h2, Out.bind_ok, if_neg h3]; exact ⟨_, rfl⟩
  rw [if_pos ⟨h1, h2, h3⟩, if_pos h1, Out.bind_ok, if_pos h2, Out.bind_ok, if_pos h3, Out.bind_ok]
  refine ⟨_, rfl, ?_, ?_, fun k hk => ?_, rfl, rfl⟩
  · simp
  · simp
  · simp [Function.update_of_ne hk]

end

end Labels
end Verif
