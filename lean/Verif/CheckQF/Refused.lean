import Verif.CheckQF.Main

/-!
# QFunction application of the checking backend: vectors that are refused
-/

namespace Verif
namespace CheckQF

variable {S T : Type}

theorem getRead_inv (bad : S) (v : Nat) (w : W S T) :
    M.wp False (getRead bad v) w (fun w' _ => ((w.vec v).state % 2 = 0 ∧ ((w.vec v).len = 0 ∨ (w.vec v).arr.isSome)) ∧
      0 < (w'.vec v).readers ∧ ∀ u, (w'.vec u).state = (w.vec u).state ∧ (w'.vec u).len = (w.vec u).len ∧ (w'.vec u).arr = (w.vec u).arr ∧
        (w.vec u).readers ≤ (w'.vec u).readers) (fun _ _ => True) := by
  unfold getRead
  rw [M.wp_bind]
  refine M.wp_of_eq_ok (s' := w) (a := w.vec v) rfl ?_
  rw [M.wp_bind]
  refine M.wp_check (fun h1 => ?_) (fun _ => trivial)
  have hset : ∀ x : Vec S, x.state = (w.vec v).state → x.len = (w.vec v).len → x.arr = (w.vec v).arr → x.readers = (w.vec v).readers + 1 →
      0 < (if v = v then x else w.vec v).readers ∧ ∀ u, ((if u = v then x else w.vec u).state = (w.vec u).state ∧
        (if u = v then x else w.vec u).len = (w.vec u).len ∧ (if u = v then x else w.vec u).arr = (w.vec u).arr ∧
        (w.vec u).readers ≤ (if u = v then x else w.vec u).readers) := by
    intro x x1 x2 x3 x4
    refine ⟨by rw [if_pos rfl, x4]; omega, fun u => ?_⟩
    by_cases hu : u = v
    · subst hu
      rw [if_pos rfl]
      exact ⟨x1, x2, x3, by omega⟩
    · rw [if_neg hu]
      exact ⟨rfl, rfl, rfl, le_rfl⟩
  by_cases hl : (w.vec v).len = 0
  · rw [if_pos hl]
    rw [M.wp_bind]
    refine M.wp_of_eq_ok rfl ?_
    rw [M.wp_pure]
    exact ⟨⟨h1, Or.inl hl⟩, hset { w.vec v with readers := (w.vec v).readers + 1 } rfl rfl rfl rfl⟩
  · rw [if_neg hl, M.wp_bind]
    refine M.wp_check (fun h2 => ?_) (fun _ => trivial)
    rw [M.wp_bind]
    refine M.wp_of_eq_ok rfl ?_
    rw [M.wp_pure]
    exact ⟨⟨h1, Or.inr h2⟩, hset { w.vec v with
      readers := (w.vec v).readers + 1, ro := if (w.vec v).ro.isSome then (w.vec v).ro else (w.vec v).arr } rfl rfl rfl rfl⟩

theorem getReads_inv (bad : S) (us : List Nat) (w : W S T) :
    M.wp False (getReads bad us) w (fun w' _ => (∀ v ∈ us, ((w.vec v).state % 2 = 0 ∧ ((w.vec v).len = 0 ∨ (w.vec v).arr.isSome)) ∧
      0 < (w'.vec v).readers) ∧ ∀ u, (w'.vec u).state = (w.vec u).state ∧ (w'.vec u).len = (w.vec u).len ∧ (w'.vec u).arr = (w.vec u).arr ∧
        (w.vec u).readers ≤ (w'.vec u).readers) (fun _ _ => True) := by
  induction us generalizing w with
  | nil =>
    unfold getReads
    rw [M.wp_pure]
    exact ⟨(fun v hv => by cases hv), fun u => ⟨rfl, rfl, rfl, le_rfl⟩⟩
  | cons v us ih =>
    unfold getReads
    rw [M.wp_bind]
    refine M.wp_mono (getRead_inv bad v w) ?_ (fun _ _ _ => trivial)
    rintro w1 _ ⟨a1, a2, a3⟩
    rw [M.wp_bind]
    refine M.wp_mono (ih w1) ?_ (fun _ _ _ => trivial)
    rintro w2 _ ⟨b1, b2⟩
    rw [M.wp_pure]
    refine ⟨fun u hu => ?_, fun u => ?_⟩
    · rcases List.mem_cons.1 hu with rfl | hu
      · exact ⟨a1, lt_of_lt_of_le a2 (b2 u).2.2.2⟩
      · obtain ⟨c1, c2⟩ := b1 u hu
        rw [(a3 u).1, (a3 u).2.1, (a3 u).2.2.1] at c1
        exact ⟨c1, c2⟩
    · obtain ⟨p1, p2, p3, p4⟩ := a3 u
      obtain ⟨q1, q2, q3, q4⟩ := b2 u
      exact ⟨q1.trans p1, q2.trans p2, q3.trans p3, le_trans p4 q4⟩

theorem getWrite_inv (bad : S) (v : Nat) (w : W S T) :
    M.wp False (getWrite bad v) w (fun w' _ => ((w.vec v).state % 2 = 0 ∧ (w.vec v).readers = 0) ∧ (w'.vec v).state % 2 = 1 ∧
      ∀ u, u ≠ v → w'.vec u = w.vec u) (fun _ _ => True) := by
  unfold getWrite
  rw [M.wp_bind]
  refine M.wp_of_eq_ok (s' := w) (a := w.vec v) rfl ?_
  rw [M.wp_bind]
  refine M.wp_check (fun h1 => ?_) (fun _ => trivial)
  rw [M.wp_bind]
  refine M.wp_check (fun h2 => ?_) (fun _ => trivial)
  have hset : ∀ x : Vec S, x.state = (w.vec v).state + 1 → (if v = v then x else w.vec v).state % 2 = 1 ∧
      ∀ u, u ≠ v → (if u = v then x else w.vec u) = w.vec u := by
    intro x hx
    refine ⟨by rw [if_pos rfl, hx]; omega, fun u hu => if_neg hu⟩
  by_cases hl : (w.vec v).len = 0
  · rw [if_pos hl, M.wp_bind]
    refine M.wp_of_eq_ok rfl ?_
    rw [M.wp_pure]
    exact ⟨⟨h1, h2⟩, hset { w.vec v with state := (w.vec v).state + 1 } rfl⟩
  · rw [if_neg hl, M.wp_bind]
    refine M.wp_of_eq_ok rfl ?_
    rw [M.wp_pure]
    exact ⟨⟨h1, h2⟩, hset { w.vec v with
      state := (w.vec v).state + 1, arr := if (w.vec v).arr.isSome then (w.vec v).arr else some fun _ => bad, wr := some fun _ => bad } rfl⟩

theorem getWrites_inv (bad : S) (vs : List Nat) (w : W S T) :
    M.wp False (getWrites bad vs) w (fun _ _ => vs.Nodup ∧ ∀ v ∈ vs, (w.vec v).state % 2 = 0 ∧ (w.vec v).readers = 0) (fun _ _ => True) := by
  induction vs generalizing w with
  | nil =>
    unfold getWrites
    rw [M.wp_pure]
    exact ⟨List.nodup_nil, fun v hv => by cases hv⟩
  | cons v vs ih =>
    unfold getWrites
    rw [M.wp_bind]
    refine M.wp_mono (getWrite_inv bad v w) ?_ (fun _ _ _ => trivial)
    rintro w1 _ ⟨a1, a2, a3⟩
    rw [M.wp_bind]
    refine M.wp_mono (ih w1) ?_ (fun _ _ _ => trivial)
    rintro w2 _ ⟨b1, b2⟩
    rw [M.wp_pure]
    have hv : v ∉ vs := fun hh => by
      have := (b2 v hh).1
      omega
    refine ⟨List.nodup_cons.2 ⟨hv, b1⟩, fun u hu => ?_⟩
    rcases List.mem_cons.1 hu with rfl | hu
    · exact a1
    · have := b2 u hu
      rw [a3 u (fun hh => hv (hh ▸ hu))] at this
      exact this

theorem getCtx_inv (b : Bool) (w : W S T) :
    M.wp False (getCtx b) w (fun w' _ => (∀ c, w.ctx = some c → c.state % 2 = 0 ∧ c.data.isSome = true ∧ (b = true → c.readers = 0)) ∧
      w'.vec = w.vec) (fun _ _ => True) := by
  unfold getCtx
  rw [M.wp_bind]
  refine M.wp_of_eq_ok (s' := w) (a := w.ctx) rfl ?_
  cases hc : w.ctx with
  | none =>
    simp only
    rw [M.wp_pure]
    exact ⟨(fun c h => by cases h), rfl⟩
  | some c =>
    simp only
    cases b with
    | true =>
      rw [if_pos rfl, M.wp_bind]
      refine M.wp_check (fun h1 => ?_) (fun _ => trivial)
      rw [M.wp_bind]
      refine M.wp_check (fun h2 => ?_) (fun _ => trivial)
      rw [M.wp_bind]
      refine M.wp_check (fun h3 => ?_) (fun _ => trivial)
      rw [M.wp_bind]
      refine M.wp_of_eq_ok rfl ?_
      rw [M.wp_pure]
      refine ⟨fun c' h => ?_, rfl⟩
      cases h
      exact ⟨h1, h3, fun _ => h2⟩
    | false =>
      rw [if_neg (by simp), M.wp_bind]
      refine M.wp_check (fun h1 => ?_) (fun _ => trivial)
      rw [M.wp_bind]
      refine M.wp_check (fun h3 => ?_) (fun _ => trivial)
      rw [M.wp_bind]
      refine M.wp_of_eq_ok rfl ?_
      rw [M.wp_pure]
      refine ⟨fun c' h => ?_, rfl⟩
      cases h
      exact ⟨h1, h3, fun h => by cases h⟩

/-- **C78**: an application succeeds only if nobody writes to an input (state odd) or has any access to an output, the inputs have
values, no output is used twice or as an input, and the context has data that nobody writes to, or reads if the QFunction
writes to it. -/
theorem C78_refused_partial [DecidableEq S] [DecidableEq T] (bad : S) (nan : S → Bool) {w w' : W S T} {q : QF S T} {Q : Nat} {us vs : List Nat}
    (e : apply bad nan q Q us vs w = .ok w' ()) :
    (∀ v ∈ us, (w.vec v).state % 2 = 0 ∧ ((w.vec v).len = 0 ∨ (w.vec v).arr.isSome)) ∧
    (∀ v ∈ vs, (w.vec v).state % 2 = 0 ∧ (w.vec v).readers = 0 ∧ v ∉ us) ∧ vs.Nodup ∧
    ∀ c, w.ctx = some c → c.state % 2 = 0 ∧ c.data.isSome = true ∧ (q.writable = true → c.readers = 0) := by
  suffices hs : M.wp False (apply bad nan q Q us vs) w (fun _ _ => (∀ v ∈ us, (w.vec v).state % 2 = 0 ∧ ((w.vec v).len = 0 ∨ (w.vec v).arr.isSome)) ∧
      (∀ v ∈ vs, (w.vec v).state % 2 = 0 ∧ (w.vec v).readers = 0 ∧ v ∉ us) ∧ vs.Nodup ∧
      ∀ c, w.ctx = some c → c.state % 2 = 0 ∧ c.data.isSome = true ∧ (q.writable = true → c.readers = 0)) (fun _ _ => True) by
    have := M.wp_ok hs e
    exact this
  unfold apply
  by_cases hq : q.vecLen = 0
  · simp only [hq, if_true]
    exact M.wp_of_eq_ub rfl id
  simp only [hq, if_false]
  rw [M.wp_bind]
  refine M.wp_check (fun _ => ?_) (fun _ => trivial)
  rw [M.wp_bind]
  refine M.wp_mono (getCtx_inv q.writable w) ?_ (fun _ _ _ => trivial)
  rintro w1 c ⟨a1, a2⟩
  rw [M.wp_bind]
  refine M.wp_mono (getReads_inv bad us w1) ?_ (fun _ _ _ => trivial)
  rintro w2 ins ⟨b1, b2⟩
  rw [M.wp_bind]
  refine M.wp_mono (getWrites_inv bad vs w2) ?_ (fun _ _ _ => trivial)
  rintro w3 outs ⟨c1, c2⟩
  rw [a2] at b1 b2
  have hall : (∀ v ∈ us, (w.vec v).state % 2 = 0 ∧ ((w.vec v).len = 0 ∨ (w.vec v).arr.isSome)) ∧
      (∀ v ∈ vs, (w.vec v).state % 2 = 0 ∧ (w.vec v).readers = 0 ∧ v ∉ us) ∧ vs.Nodup ∧
      ∀ c, w.ctx = some c → c.state % 2 = 0 ∧ c.data.isSome = true ∧ (q.writable = true → c.readers = 0) := by
    refine ⟨fun v hv => (b1 v hv).1, fun v hv => ?_, c1, a1⟩
    obtain ⟨d1, d2⟩ := c2 v hv
    obtain ⟨p1, _, _, p4⟩ := b2 v
    refine ⟨by rw [← p1]; exact d1, by omega, fun hh => ?_⟩
    have := (b1 v hh).2
    omega
  cases q.user c Q ins outs with
  | none => exact M.wp_of_eq_err rfl trivial
  | some r =>
    simp only
    cases e3 : finish nan q Q us vs r w3 with
    | ok w4 u => exact M.wp_of_eq_ok e3 hall
    | err w4 u => exact M.wp_of_eq_err e3 trivial
    | ub => exact M.wp_of_eq_ub e3 id

/-- Of the two lists, only the first one is accepted in a state where somebody writes to vector 1. -/
example : let w : W Nat Nat := ⟨fun v => ⟨1, if v = 1 then 1 else 0, 0, some fun _ => 3, none, none⟩, none⟩
    let q : QF Nat Nat := ⟨false, 1, [1], fun c _ ins _ => some ⟨c, ins, [fun _ => 5]⟩⟩
    (match apply 99 (· == 99) q 1 [0] [2] w with | .ok _ _ => true | _ => false) = true ∧
    (match apply 99 (· == 99) q 1 [1] [2] w with | .err _ e => some e | _ => none) = some .access := by decide +kernel

end CheckQF
end Verif
