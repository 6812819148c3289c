import Verif.Operator.FullSpec
import Verif.Operator.FullLemmas

/-!
# Assembly of the matrix: element matrices
-/

namespace Verif
namespace Operator

open Finset
open Restriction (RData Made Rep Variant Rstr)
open Basis (EMode)

set_option linter.unusedSectionVars false

/-! ## Five loops -/

section Five
variable {β : Type}

/-- Position of an entry. -/
def epos (ncI ncO esO esI e ci co i j : Nat) : Nat := (((e * ncI + ci) * ncO + co) * esO + i) * esI + j

theorem epos_lt {ne ncI ncO esO esI e ci co i j : Nat} (he : e < ne) (hi : ci < ncI) (ho : co < ncO) (h : i < esO)
    (hj : j < esI) : epos ncI ncO esO esI e ci co i j < ne * ncI * ncO * esO * esI :=
  enc_lt (enc_lt (enc_lt (enc_lt he hi) ho) h) hj

/-- The loops that store the entries in order. -/
def storeAll (ne ncI ncO esO esI off : Nat) (X : Nat → Nat → Nat → Nat → Nat → β) (s : Buf β × Nat) : Res (Buf β × Nat) :=
  loop ne (fun e s => loop ncI (fun ci s => loop ncO (fun co s => loop esO (fun i s => loop esI (fun j (s : Buf β × Nat) =>
    s.1.wr (off + s.2) (X e ci co i j) >>= fun v => Res.ok (v, s.2 + 1)) s) s) s) s) s

theorem storeAll_ok {ne ncI ncO esO esI off : Nat} (X : Nat → Nat → Nat → Nat → Nat → β) {v : Buf β}
    (h : off + ne * ncI * ncO * esO * esI ≤ v.len) :
    ∃ v', storeAll ne ncI ncO esO esI off X (v, 0) = .ok (v', ne * ncI * ncO * esO * esI) ∧ v'.len = v.len ∧
      (∀ e < ne, ∀ ci < ncI, ∀ co < ncO, ∀ i < esO, ∀ j < esI,
        v'.val (off + epos ncI ncO esO esI e ci co i j) = X e ci co i j) ∧
      ∀ x, (x < off ∨ off + ne * ncI * ncO * esO * esI ≤ x) → v'.val x = v.val x := by
  have l1 : ∀ e ci co i (v : Buf β) c, loop esI (fun j (s : Buf β × Nat) =>
      s.1.wr (off + s.2) (X e ci co i j) >>= fun v => Res.ok (v, s.2 + 1)) (v, c) =
      (loop esI (fun j v => v.wr (off + (c + j)) (X e ci co i j)) v >>= fun v => .ok (v, c + esI)) := by
    intro e ci co i v c
    rw [loop_count (k := 1) (g := fun j c v => v.wr (off + c) (X e ci co i j)) (fun j hj v c => rfl)]
    simp only [Nat.mul_one]
  have l2 : ∀ e ci co (v : Buf β) c, loop esO (fun i s => loop esI (fun j (s : Buf β × Nat) =>
      s.1.wr (off + s.2) (X e ci co i j) >>= fun v => Res.ok (v, s.2 + 1)) s) (v, c) =
      (loop esO (fun i v => loop esI (fun j v => v.wr (off + (c + i * esI + j)) (X e ci co i j)) v) v >>=
        fun v => .ok (v, c + esO * esI)) := by
    intro e ci co v c
    rw [loop_count (k := esI) (g := fun i c v => loop esI (fun j v => v.wr (off + (c + j)) (X e ci co i j)) v)
      (fun i hi v c => l1 e ci co i v c)]
  have l3 : ∀ e ci (v : Buf β) c, loop ncO (fun co s => loop esO (fun i s => loop esI (fun j (s : Buf β × Nat) =>
      s.1.wr (off + s.2) (X e ci co i j) >>= fun v => Res.ok (v, s.2 + 1)) s) s) (v, c) =
      (loop ncO (fun co v => loop esO (fun i v => loop esI (fun j v => v.wr (off + (c + co * (esO * esI) + i * esI + j))
        (X e ci co i j)) v) v) v >>= fun v => .ok (v, c + ncO * (esO * esI))) := by
    intro e ci v c
    rw [loop_count (k := esO * esI) (g := fun co c v => loop esO (fun i v => loop esI (fun j v =>
      v.wr (off + (c + i * esI + j)) (X e ci co i j)) v) v) (fun co hco v c => l2 e ci co v c)]
  have l4 : ∀ e (v : Buf β) c, loop ncI (fun ci s => loop ncO (fun co s => loop esO (fun i s => loop esI
      (fun j (s : Buf β × Nat) =>
      s.1.wr (off + s.2) (X e ci co i j) >>= fun v => Res.ok (v, s.2 + 1)) s) s) s) (v, c) =
      (loop ncI (fun ci v => loop ncO (fun co v => loop esO (fun i v => loop esI (fun j v =>
        v.wr (off + (c + ci * (ncO * (esO * esI)) + co * (esO * esI) + i * esI + j))
        (X e ci co i j)) v) v) v) v >>= fun v => .ok (v, c + ncI * (ncO * (esO * esI)))) := by
    intro e v c
    rw [loop_count (k := ncO * (esO * esI)) (g := fun ci c v => loop ncO (fun co v => loop esO (fun i v => loop esI
      (fun j v => v.wr (off + (c + co * (esO * esI) + i * esI + j)) (X e ci co i j)) v) v) v)
      (fun ci hci v c => l3 e ci v c)]
  have l5 : storeAll ne ncI ncO esO esI off X (v, 0) =
      (loop ne (fun e v => loop ncI (fun ci v => loop ncO (fun co v => loop esO (fun i v => loop esI (fun j v =>
        v.wr (off + epos ncI ncO esO esI e ci co i j) (X e ci co i j)) v) v) v) v) v >>=
        fun v => .ok (v, ne * ncI * ncO * esO * esI)) := by
    unfold storeAll
    rw [loop_count (k := ncI * (ncO * (esO * esI))) (g := fun e c v => loop ncI (fun ci v => loop ncO (fun co v =>
      loop esO (fun i v => loop esI (fun j v =>
        v.wr (off + (c + ci * (ncO * (esO * esI)) + co * (esO * esI) + i * esI + j))
        (X e ci co i j)) v) v) v) v) (fun e he v c => l4 e v c)]
    have hp : ∀ e ci co i j, off + (0 + e * (ncI * (ncO * (esO * esI))) + ci * (ncO * (esO * esI)) + co * (esO * esI) +
        i * esI + j) = off + epos ncI ncO esO esI e ci co i j := by
      intro e ci co i j; unfold epos; ring
    have hn : 0 + ne * (ncI * (ncO * (esO * esI))) = ne * ncI * ncO * esO * esI := by ring
    simp only [hp, hn]
  let dec : Nat → β := fun x => X ((x - off) / esI / esO / ncO / ncI) ((x - off) / esI / esO / ncO % ncI)
    ((x - off) / esI / esO % ncO) ((x - off) / esI % esO) ((x - off) % esI)
  have key : Sets (fun v => loop ne (fun e v => loop ncI (fun ci v => loop ncO (fun co v => loop esO (fun i v => loop esI
      (fun j v => v.wr (off + epos ncI ncO esO esI e ci co i j) (X e ci co i j)) v) v) v) v) v) v.len
      (fun x => ∃ e < ne, ∃ ci < ncI, ∃ co < ncO, ∃ i < esO, ∃ j < esI, x = off + epos ncI ncO esO esI e ci co i j) dec := by
    refine Sets.loop (fun e he => Sets.loop (fun ci hci => Sets.loop (fun co hco => Sets.loop (fun i hi => Sets.loop
      (fun j hj => Sets.wr ?_ ?_)))))
    · have := epos_lt he hci hco hi hj; omega
    · simp only [dec, Nat.add_sub_cancel_left]
      unfold epos
      rw [div_enc hj, mod_enc hj, div_enc hi, mod_enc hi, div_enc hco, mod_enc hco, div_enc hci, mod_enc hci]
  obtain ⟨v', e1, e2, e3, e4⟩ := key v rfl
  refine ⟨v', ?_, e2, ?_, ?_⟩
  · rw [l5]
    simp only at e1
    rw [e1, Res.bind_ok]
  · intro e he ci hci co hco i hi j hj
    rw [e3 _ ⟨e, he, ci, hci, co, hco, i, hi, j, hj, rfl⟩]
    simp only [dec, Nat.add_sub_cancel_left]
    unfold epos
    rw [div_enc hj, mod_enc hj, div_enc hi, mod_enc hi, div_enc hco, mod_enc hco, div_enc hci, mod_enc hci]
  · intro x hx
    refine e4 x ?_
    rintro ⟨e, he, ci, hci, co, hco, i, hi, j, hj, rfl⟩
    have := epos_lt he hci hco hi hj
    omega

theorem sum_epos {γ : Type} [AddCommMonoid γ] (ne ncI ncO esO esI : Nat) (f : Nat → γ) :
    ∑ k ∈ range (ne * ncI * ncO * esO * esI), f k = ∑ e ∈ range ne, ∑ ci ∈ range ncI, ∑ co ∈ range ncO, ∑ i ∈ range esO,
      ∑ j ∈ range esI, f (epos ncI ncO esO esI e ci co i j) := by
  simp only [Restriction.sum_range_mul]
  rfl

/-- Every position is that of an entry. -/
theorem epos_surj {ne ncI ncO esO esI k : Nat} (hk : k < ne * ncI * ncO * esO * esI) :
    ∃ e < ne, ∃ ci < ncI, ∃ co < ncO, ∃ i < esO, ∃ j < esI, k = epos ncI ncO esO esI e ci co i j := by
  have step : ∀ {x a b : Nat}, x < a * b → x / b < a ∧ x % b < b ∧ x = x / b * b + x % b := by
    intro x a b hx
    have hb : 0 < b := Nat.pos_of_ne_zero (fun h0 => by rw [h0, Nat.mul_zero] at hx; omega)
    exact ⟨(Nat.div_lt_iff_lt_mul hb).2 hx, Nat.mod_lt _ hb, by rw [Nat.mul_comm]; exact (Nat.div_add_mod x b).symm⟩
  obtain ⟨a1, a2, a3⟩ := step hk
  obtain ⟨b1, b2, b3⟩ := step a1
  obtain ⟨c1, c2, c3⟩ := step b1
  obtain ⟨d1, d2, d3⟩ := step c1
  refine ⟨_, d1, _, d2, _, c2, _, b2, _, a2, ?_⟩
  unfold epos
  rw [← d3, ← c3, ← b3, ← a3]

end Five

variable {α : Type} [CommRing α]

/-! ## Restrictions of the active fields -/

theorem findRstr_ok {f : Nat → OField α} {n : Nat} {x : Option (Option Nat)} (h : findRstr f n = .ok x) :
    (∀ i < n, (f i).vec = .active → x = some (f i).rid) ∧ (∀ r, x = some r → ∃ i < n, (f i).vec = .active ∧ (f i).rid = r) := by
  induction n generalizing x with
  | zero => cases h; exact ⟨fun i hi => absurd hi (by omega), fun r hr => by cases hr⟩
  | succ n ih =>
    unfold findRstr at h
    obtain ⟨y, hy, h⟩ := Res.bind_eq_ok.1 h
    obtain ⟨k1, k2⟩ := ih hy
    by_cases ha : (f n).vec = .active
    · rw [if_pos ha] at h
      rcases y with _ | r
      · cases h
        refine ⟨fun i hi hai => ?_, fun r hr => ⟨n, by omega, ha, by cases hr; rfl⟩⟩
        rcases Nat.lt_succ_iff_lt_or_eq.1 hi with hi | rfl
        · cases k1 i hi hai
        · rfl
      · simp only at h
        split at h
        · rename_i hr
          cases h
          refine ⟨fun i hi hai => ?_, fun r' hr' => ⟨n, by omega, ha, by cases hr'; exact hr.symm⟩⟩
          rcases Nat.lt_succ_iff_lt_or_eq.1 hi with hi | rfl
          · exact k1 i hi hai
          · rw [hr]
        · cases h
    · rw [if_neg ha] at h
      cases h
      refine ⟨fun i hi hai => ?_, fun r hr => ?_⟩
      · rcases Nat.lt_succ_iff_lt_or_eq.1 hi with hi | rfl
        · exact k1 i hi hai
        · exact absurd hai ha
      · obtain ⟨i, hi, rest⟩ := k2 r hr
        exact ⟨i, by omega, rest⟩

theorem activeRstr_ok {f : Nat → OField α} {n r : Nat} (h : activeRstr f n = .ok r) :
    (∀ i < n, (f i).vec = .active → (f i).rid = some r) ∧ ∃ i < n, (f i).vec = .active := by
  unfold activeRstr at h
  obtain ⟨y, hy, h⟩ := Res.bind_eq_ok.1 h
  obtain ⟨k1, k2⟩ := findRstr_ok hy
  rcases y with _ | (_ | x)
  · cases h
  · cases h
  · cases h
    obtain ⟨i, hi, ha, _⟩ := k2 _ rfl
    exact ⟨fun i hi ha => (Option.some.inj (k1 i hi ha)).symm, i, hi, ha⟩

/-- Active fields with a common restriction are found to have it. -/
theorem activeRstr_eq {f : Nat → OField α} {n r : Nat} (h : ∀ i < n, (f i).vec = .active → (f i).rid = some r)
    (hs : ∃ i < n, (f i).vec = .active) : activeRstr f n = .ok r := by
  have : ∀ m, m ≤ n → findRstr f m = .ok (if ∃ i < m, (f i).vec = .active then some (some r) else none) := by
    intro m hm
    induction m with
    | zero => simp [findRstr]
    | succ m ih =>
      rw [findRstr, ih (by omega), Res.bind_ok]
      by_cases ha : (f m).vec = .active
      · have hex : ∃ i < m + 1, (f i).vec = .active := ⟨m, by omega, ha⟩
        rw [if_pos ha, if_pos hex, h m (by omega) ha]
        by_cases he : ∃ i < m, (f i).vec = .active
        · rw [if_pos he]
          simp
        · rw [if_neg he]
      · rw [if_neg ha]
        congr 1
        refine if_congr ⟨fun ⟨i, hi, hh⟩ => ⟨i, by omega, hh⟩, fun ⟨i, hi, hh⟩ => ?_⟩ rfl rfl
        rcases Nat.lt_succ_iff_lt_or_eq.1 hi with hi | rfl
        · exact ⟨i, hi, hh⟩
        · exact absurd hh ha
  unfold activeRstr
  rw [this n (le_refl _), if_pos hs, Res.bind_ok]

/-! ## The table of the active bases -/

theorem newModes_fst (p : Prec α) (bid : Option Nat) (m : EMode) (off off' : Nat) :
    (newModes p bid m off).map Prod.fst = (newModes p bid m off').map Prod.fst := by
  unfold newModes
  split
  · rfl
  · rw [List.map_map, List.map_map]; rfl

/-- The modes in the table do not depend on the offsets. -/
theorem asmData_fst (p : Prec α) (f : Nat → OField α) (ids : Nat → Option Nat) (n : Nat) :
    ((asmData p f ids n).1.map ABasis.bid).Nodup ∧
    (∀ k, k ∈ (asmData p f ids n).1.map ABasis.bid ↔ ∃ i < n, (f i).vec = .active ∧ ids i = k) ∧
    (∀ a ∈ (asmData p f ids n).1, a.modes.map Prod.fst = (modesOf p f ids a.bid n).map Prod.fst ∧
      ∃ i < n, (f i).vec = .active ∧ ids i = a.bid ∧ (f i).rid = a.rid) := by
  induction n with
  | zero => simp [asmData]
  | succ n ih =>
    obtain ⟨h2, h3, h4⟩ := ih
    rw [asmData]
    by_cases ha : (f n).vec = .active
    · simp only [if_pos ha]
      refine ⟨?_, ?_, ?_⟩
      · rw [bids_addModes]
        split
        · exact h2
        · rename_i hm
          rw [List.nodup_append]
          exact ⟨h2, by simp, fun x hx y hy => by
            rw [List.mem_singleton] at hy; subst hy; exact fun hh => hm (hh ▸ hx)⟩
      · intro k
        rw [bids_addModes]
        constructor
        · intro hk
          split at hk
          · obtain ⟨i, hi, rest⟩ := (h3 k).1 hk
            exact ⟨i, by omega, rest⟩
          · rcases List.mem_append.1 hk with hk | hk
            · obtain ⟨i, hi, rest⟩ := (h3 k).1 hk
              exact ⟨i, by omega, rest⟩
            · rw [List.mem_singleton] at hk
              exact ⟨n, by omega, ha, hk.symm⟩
        · rintro ⟨i, hi, hia, hik⟩
          have : k ∈ (asmData p f ids n).1.map ABasis.bid ∨ k = ids n := by
            rcases Nat.lt_succ_iff_lt_or_eq.1 hi with h5 | h5
            · exact Or.inl ((h3 k).2 ⟨i, h5, hia, hik⟩)
            · subst h5; exact Or.inr hik.symm
          split
          · rename_i hm
            rcases this with h5 | h5
            · exact h5
            · rw [h5]; exact hm
          · rcases this with h5 | h5
            · exact List.mem_append_left _ h5
            · rw [h5]; simp
      · intro a hmem
        rcases mem_addModes h2 hmem with ⟨hb, hne⟩ | ⟨b, hb, hbid, rfl⟩ | ⟨rfl, hni⟩
        · obtain ⟨h5, i, hi, rest⟩ := h4 a hb
          refine ⟨?_, i, by omega, rest⟩
          rw [modesOf, if_neg (fun hh => hne hh.2.symm), List.append_nil]; exact h5
        · obtain ⟨h5, i, hi, rest⟩ := h4 b hb
          refine ⟨?_, i, by omega, rest⟩
          simp only
          rw [modesOf, if_pos ⟨ha, hbid.symm⟩, List.map_append, List.map_append, h5, hbid]
          congr 1
          exact newModes_fst _ _ _ _ _
        · refine ⟨?_, n, by omega, ha, rfl, rfl⟩
          have hnil : ∀ m ≤ n, modesOf p f ids (ids n) m = [] := by
            intro m hm
            induction m with
            | zero => rfl
            | succ m ihm =>
              rw [modesOf, ihm (by omega), List.nil_append, if_neg]
              rintro ⟨g1, g2⟩
              exact hni ((h3 (ids n)).2 ⟨m, by omega, g1, g2⟩)
          simp only
          rw [modesOf, if_pos ⟨ha, rfl⟩, hnil n (le_refl _), List.nil_append]
          exact newModes_fst _ _ _ _ _
    · simp only [if_neg ha]
      refine ⟨h2, ?_, ?_⟩
      · intro k
        rw [h3]
        constructor
        · rintro ⟨i, hi, rest⟩; exact ⟨i, by omega, rest⟩
        · rintro ⟨i, hi, hia, hik⟩
          rcases Nat.lt_succ_iff_lt_or_eq.1 hi with h5 | h5
          · exact ⟨i, h5, hia, hik⟩
          · subst h5; exact absurd hia ha
      · intro a hmem
        obtain ⟨h5, i, hi, rest⟩ := h4 a hmem
        refine ⟨?_, i, by omega, rest⟩
        rw [modesOf, if_neg (fun hh => ha hh.1), List.append_nil]; exact h5

/-- The parts of the matrices do not depend on the offsets. -/
theorem dirs_fst (qc : EMode → Nat) {l l' : List (EMode × Nat)} (h : l.map Prod.fst = l'.map Prod.fst)
    (prev : Option EMode) (d : Nat) : (dirs qc prev d l).map (fun x => (x.1, x.2.2)) =
      (dirs qc prev d l').map (fun x => (x.1, x.2.2)) := by
  induction l generalizing l' prev d with
  | nil =>
    cases l' with
    | nil => rfl
    | cons => simp at h
  | cons x l ih =>
    cases l' with
    | nil => simp at h
    | cons y l' =>
      obtain ⟨xm, xo⟩ := x
      obtain ⟨ym, yo⟩ := y
      simp only [List.map_cons, List.cons.injEq] at h
      obtain ⟨rfl, h⟩ := h
      simp only [dirs]
      split
      · simp only [List.map_cons, ih h]
      · simp only [List.map_cons, ih h]

/-! ## Numbering of the modes -/

/-- Number of the first mode of field `i`. -/
def firstMode (p : Prec α) (f : Nat → OField α) (ids : Nat → Option Nat) (bid : Option Nat) (i : Nat) : Nat :=
  (dirModes p f ids bid i).length

theorem firstMode_succ (p : Prec α) (f : Nat → OField α) (ids : Nat → Option Nat) (bid : Option Nat) (n : Nat) :
    firstMode p f ids bid (n + 1) = firstMode p f ids bid n +
      if (f n).vec = .active ∧ ids n = bid then p.qComp bid (f n).mode else 0 := by
  unfold firstMode
  rw [dirModes, List.length_append]
  split <;> simp

theorem dirModes_get {p : Prec α} {f : Nat → OField α} {ids : Nat → Option Nat} {bid : Option Nat} {n i d : Nat} (hi : i < n)
    (ha : (f i).vec = .active) (hb : ids i = bid) (hd : d < p.qComp bid (f i).mode) :
    (dirModes p f ids bid n)[firstMode p f ids bid i + d]? = some ((f i).mode, offset f i + d * p.nc bid, d) := by
  induction n with
  | zero => omega
  | succ n ih =>
    rw [dirModes]
    rcases Nat.lt_succ_iff_lt_or_eq.1 hi with h | rfl
    · have h1 := ih h
      rw [List.getElem?_append_left (List.getElem?_eq_some_iff.1 h1).1]
      exact h1
    · rw [if_pos ⟨ha, hb⟩, firstMode, List.getElem?_append_right (Nat.le_add_right _ _), Nat.add_sub_cancel_left]
      simp [hd]

/-- A sum over the modes. -/
theorem sum_firstMode (p : Prec α) (f : Nat → OField α) (ids : Nat → Option Nat) (bid : Option Nat) (n : Nat)
    (F : Nat → α) : ∑ e ∈ range (firstMode p f ids bid n), F e =
      ∑ i ∈ range n, if (f i).vec = .active ∧ ids i = bid then
        ∑ d ∈ range (p.qComp bid (f i).mode), F (firstMode p f ids bid i + d) else 0 := by
  induction n with
  | zero => simp [firstMode, dirModes]
  | succ n ih =>
    rw [firstMode_succ, sum_range_add, ih, sum_range_succ]
    congr 1
    split
    · rfl
    · simp

/-- Every number is that of a mode of a field. -/
theorem firstMode_surj {p : Prec α} {f : Nat → OField α} {ids : Nat → Option Nat} {bid : Option Nat} {n e : Nat}
    (he : e < firstMode p f ids bid n) : ∃ i < n, (f i).vec = .active ∧ ids i = bid ∧
      ∃ d < p.qComp bid (f i).mode, e = firstMode p f ids bid i + d := by
  induction n with
  | zero => simp [firstMode, dirModes] at he
  | succ n ih =>
    by_cases h : e < firstMode p f ids bid n
    · obtain ⟨i, hi, rest⟩ := ih h
      exact ⟨i, by omega, rest⟩
    · rw [firstMode_succ] at he
      split at he
      · rename_i hc
        exact ⟨n, by omega, hc.1, hc.2, e - firstMode p f ids bid n, by omega, by omega⟩
      · omega

/-! ## The fields -/

/-- Matrix of a field in its mode. -/
def Meaning.bF (S : Meaning α) (op : Oper α) (a : OField α) (m : Buf α) (c q n : Nat) : α :=
  if a.mode = .none then (if n = q then 1 else 0) else m.val ((c * op.Q + q) * (S.dat a).es + n)

/-- What is known about an active field. -/
structure FField (op : Oper α) (p : Prec α) (S : Meaning α) (a : OField α) (bid : Option Nat) (m : Buf α) : Prop where
  ptr : ∃ B, basisPtr p bid a.mode (ident (S.dat a).es op.Q) = .ok B ∧ a.qc * op.Q * (S.dat a).es ≤ B.len ∧
    ∀ d q n, q < op.Q → n < (S.dat a).es → d < a.qc →
      B.val (d * op.Q * (S.dat a).es + (q * (S.dat a).es + n)) = S.bF op a m d q n
  Q : fullQ p bid (S.dat a).es = op.Q
  qc : p.qComp bid a.mode = a.qc
  weight : a.mode ≠ .weight

theorem ffield_aux {op : Oper α} {p : Prec α} {S : Meaning α} {a : OField α} {bid : Option Nat} {m : Buf α}
    (hb : FieldHas op p S a bid m) (hw : a.mode ≠ .weight) (hn : a.mode = .none → (S.dat a).es = op.Q)
    (hf : a.mode ≠ .none → a.mode ≠ .weight → ∃ b, Fits op S a b) : FField op p S a bid m := by
  rcases hb with ⟨h1, rfl⟩ | hb
  · have hes := hn h1
    have hqc : a.qc = 1 := qc_none h1
    refine ⟨⟨ident (S.dat a).es op.Q, by rw [h1]; rfl, ?_, ?_⟩, hes, hqc.symm, hw⟩
    · rw [hqc, Nat.one_mul]; exact le_refl _
    · intro d q n hq hnn hd
      have : d = 0 := by omega
      subst this
      unfold Meaning.bF ident
      rw [if_pos h1]
      simp only [Nat.zero_mul, Nat.zero_add, div_enc hnn, mod_enc hnn, eq_comm]
  · obtain ⟨hn1, b, rfl, h1, m', h2, h3, h4⟩ := hb
    obtain ⟨b', f1, f2, f3, f4, f5⟩ := hf hn1 hw
    have hbb : b' = p.bas b := by rw [h1] at f1; exact (Option.some.inj f1).symm
    subst hbb
    have hqc : (p.bas b).qComp a.mode = a.qc := by simp only [OField.qc, h1]
    refine ⟨⟨m', h2 _, by rw [← hqc]; exact h4, ?_⟩, f4, hqc, hw⟩
    intro d q n _ _ _
    unfold Meaning.bF
    rw [if_neg hn1, h3]
    congr 1
    ring

theorem FullOK.fieldIn {op : Oper α} {p : Prec α} {S : Meaning α} (h : OpOK op S) (hd : FullOK op p S) {i : Nat}
    (hi : i < op.nin) (ha : (op.inp i).vec = .active) : FField op p S (op.inp i) (p.inB i) (S.mIn i) := by
  refine ffield_aux (hd.inB i hi ha) ((h.inp i hi).active ha).2.2.1 ((h.inp i hi).active ha).2.2.2 (fun h1 h2 => ?_)
  have := h.inp i hi
  unfold InOK at this
  rcases hm : (op.inp i).mode with _ | _ | _ | _ | _ | _ <;> simp only [hm] at this
  case none => exact absurd hm h1
  case weight => exact absurd hm h2
  all_goals exact ⟨this.2.choose, this.2.choose_spec.1⟩

theorem FullOK.fieldOut {op : Oper α} {p : Prec α} {S : Meaning α} (h : OpOK op S) (hd : FullOK op p S) {o : Nat}
    (ho : o < op.nout) (ha : (op.out o).vec = .active) : FField op p S (op.out o) (p.outB o) (S.mOut o) := by
  refine ffield_aux (hd.outB o ho ha) (h.out o ho).active.2.2.1 (h.out o ho).active.2.2.2 (fun h1 h2 => ?_)
  have := h.out o ho
  unfold OutOK at this
  rcases hm : (op.out o).mode with _ | _ | _ | _ | _ | _ <;> simp only [hm] at this
  case none => exact absurd hm h1
  all_goals exact ⟨this.2.choose, this.2.choose_spec.1⟩

/-! ## One side of the operator -/

/-- The active fields `f` have the basis of `a` and the restriction `r`, which acts as `D`. -/
structure Side (op : Oper α) (p : Prec α) (S : Meaning α) (f : Nat → OField α) (ids : Nat → Option Nat) (ms : Nat → Buf α)
    (n : Nat) (a : ABasis) (r : Nat) : Prop where
  fields : ∀ i < n, (f i).vec = .active → ids i = a.bid ∧ (f i).rid = some r ∧ FField op p S (f i) a.bid (ms i)
  size : ∀ i < n, (f i).vec = .active → (f i).size = (f i).qc * (S.D r).nc
  rid : a.rid = some r
  modes : (dirs (p.qComp a.bid) none 0 a.modes).map (fun x => (x.1, x.2.2)) =
    (dirModes p f ids a.bid n).map (fun x => (x.1, x.2.2))
  len : a.modes.length = firstMode p f ids a.bid n
  made : ∃ l, Made .plain (op.rstrs r) 1 l (S.D r)
  ne : (S.D r).ne = op.ne
  ex : ∃ i < n, (f i).vec = .active

theorem dirs_length (qc : EMode → Nat) (prev : Option EMode) (d : Nat) (l : List (EMode × Nat)) :
    (dirs qc prev d l).length = l.length := by
  induction l generalizing prev d with
  | nil => rfl
  | cons x l ih =>
    obtain ⟨m, o⟩ := x
    simp only [dirs]
    split <;> simp [ih]

theorem side_aux {op : Oper α} {p : Prec α} {S : Meaning α} {f : Nat → OField α} {ids : Nat → Option Nat}
    {ms : Nat → Buf α} {n : Nat} {a : ABasis} {r : Nat} (ha : (asmData p f ids n).1 = [a]) (hr : activeRstr f n = .ok r)
    (hsep : Separated p f ids n) (hF : ∀ i < n, (f i).vec = .active → FField op p S (f i) (ids i) (ms i))
    (hS : ∀ i < n, (f i).vec = .active → HasRstr op S (f i) ∧ (f i).size = (f i).qc * (S.dat (f i)).nc) :
    Side op p S f ids ms n a r := by
  obtain ⟨k1, k2, k3⟩ := asmData_fst p f ids n
  obtain ⟨r1, i0, hi0, ha0⟩ := activeRstr_ok hr
  rw [ha] at k2 k3
  have hb : ∀ i < n, (f i).vec = .active → ids i = a.bid := by
    intro i hi hai
    have := (k2 (ids i)).2 ⟨i, hi, hai, rfl⟩
    simpa using this
  obtain ⟨m1, i1, hi1, ha1, hb1, hr1⟩ := k3 a (by simp)
  have hdm := dirs_modesOf a.bid hsep (fun i hi hai => (hF i hi hai).weight)
  have hd : ∀ i < n, (f i).vec = .active → S.dat (f i) = S.D r := by
    intro i hi hai; unfold Meaning.dat; rw [r1 i hi hai]; rfl
  have hmodes : (dirs (p.qComp a.bid) none 0 a.modes).map (fun x => (x.1, x.2.2)) =
      (dirModes p f ids a.bid n).map (fun x => (x.1, x.2.2)) := by
    rw [dirs_fst _ m1, hdm.1]
  obtain ⟨r', l, hr', hm, hne⟩ := (hS i0 hi0 ha0).1
  rw [r1 i0 hi0 ha0] at hr'
  cases hr'
  refine ⟨fun i hi hai => ⟨hb i hi hai, r1 i hi hai, by rw [← hb i hi hai]; exact hF i hi hai⟩,
    fun i hi hai => by rw [(hS i hi hai).2, hd i hi hai], by rw [← hr1, r1 i1 hi1 ha1], hmodes, ?_, ⟨l, hm⟩, hne, i0, hi0, ha0⟩
  have := congrArg List.length hmodes
  rw [List.length_map, List.length_map, dirs_length] at this
  exact this

variable {op : Oper α} {p : Prec α} {S : Meaning α} {f : Nat → OField α} {ids : Nat → Option Nat}
    {ms : Nat → Buf α} {n : Nat} {a : ABasis} {r : Nat}

theorem Side.dat (h : Side op p S f ids ms n a r) {i : Nat} (hi : i < n) (ha : (f i).vec = .active) :
    S.dat (f i) = S.D r := by
  unfold Meaning.dat; rw [(h.fields i hi ha).2.1]; rfl

theorem Side.offset (h : Side op p S f ids ms n a r) {i : Nat} (hi : i ≤ n) :
    Operator.offset f i = firstMode p f ids a.bid i * (S.D r).nc := by
  induction i with
  | zero => simp [Operator.offset, firstMode, dirModes]
  | succ i ih =>
    have : Operator.offset f (i + 1) = Operator.offset f i + if (f i).vec = .active then (f i).size else 0 :=
      sum_range_succ _ _
    rw [this, ih (by omega), firstMode_succ]
    by_cases ha : (f i).vec = .active
    · obtain ⟨h1, _, h3⟩ := h.fields i (by omega) ha
      rw [if_pos ha, if_pos ⟨ha, h1⟩, h.size i (by omega) ha, h3.qc, Nat.add_mul]
    · rw [if_neg ha, if_neg (fun hh => ha hh.1), Nat.add_zero, Nat.add_zero]

/-- A sum over the modes of the fields. -/
theorem Side.sum (h : Side op p S f ids ms n a r) (F : Nat → α) : ∑ e ∈ range a.modes.length, F e =
    ∑ i ∈ range n, if (f i).vec = .active then ∑ d ∈ range (f i).qc, F (firstMode p f ids a.bid i + d) else 0 := by
  rw [h.len, sum_firstMode]
  refine sum_congr rfl (fun i hi => ?_)
  by_cases ha : (f i).vec = .active
  · obtain ⟨h1, _, h3⟩ := h.fields i (mem_range.1 hi) ha
    rw [if_pos ha, if_pos ⟨ha, h1⟩, h3.qc]
  · rw [if_neg ha, if_neg (fun hh => ha hh.1)]

/-- The assembled matrices of the modes. -/
theorem Side.basis (h : Side op p S f ids ms n a r) : ∃ V, assembledBasis op p a = .ok V ∧
    V.len = op.Q * (S.D r).es * a.modes.length ∧ ∀ i < n, (f i).vec = .active → ∀ d < (f i).qc, ∀ q < op.Q, ∀ m < (S.D r).es,
      V.val ((q * a.modes.length + (firstMode p f ids a.bid i + d)) * (S.D r).es + m) = S.bF op (f i) (ms i) d q m := by
  obtain ⟨l, hm⟩ := h.made
  obtain ⟨hrep, _⟩ := hm.rep
  have hP : (op.rstrs r).elemSize = (S.D r).es := hrep.es
  have hQ : fullQ p a.bid (S.D r).es = op.Q := by
    obtain ⟨i, hi, ha⟩ := h.ex
    have := (h.fields i hi ha).2.2.Q
    rwa [h.dat hi ha] at this
  have hlen : (dirs (p.qComp a.bid) none 0 a.modes).length = a.modes.length := dirs_length _ _ _ _
  -- what entry `e` of the list is
  have hget : ∀ i < n, (f i).vec = .active → ∀ d < (f i).qc, ∃ o,
      (dirs (p.qComp a.bid) none 0 a.modes)[firstMode p f ids a.bid i + d]? = some ((f i).mode, o, d) := by
    intro i hi ha d hd
    obtain ⟨h1, _, h3⟩ := h.fields i hi ha
    have e1 := dirModes_get (p := p) (bid := a.bid) hi ha h1 (by rw [h3.qc]; exact hd)
    have e2 := congrArg (·[firstMode p f ids a.bid i + d]?) h.modes
    simp only [List.getElem?_map, e1, Option.map_some] at e2
    rcases hx : (dirs (p.qComp a.bid) none 0 a.modes)[firstMode p f ids a.bid i + d]? with _ | x
    · rw [hx] at e2; simp at e2
    · rw [hx] at e2
      simp only [Option.map_some, Option.some.injEq, Prod.mk.injEq] at e2
      obtain ⟨x1, x2, x3⟩ := x
      obtain ⟨rfl, rfl⟩ := e2
      exact ⟨x2, rfl⟩
  have hex : ∀ e, ∃ g : Nat → Nat → α, ∀ i < n, (f i).vec = .active → ∀ d < (f i).qc,
      e = firstMode p f ids a.bid i + d → ∀ q m, g q m = S.bF op (f i) (ms i) d q m := by
    intro e
    by_cases hE : e < firstMode p f ids a.bid n
    · obtain ⟨i, hi, ha, hid, d, hd, rfl⟩ := firstMode_surj hE
      rw [(h.fields i hi ha).2.2.qc] at hd
      refine ⟨S.bF op (f i) (ms i) d, fun i' hi' ha' d' hd' heq => ?_⟩
      have key : i = i' ∧ d = d' := by
        have mono : ∀ x y, x < y → y ≤ n → (f x).vec = .active → ids x = a.bid →
            firstMode p f ids a.bid x + p.qComp a.bid (f x).mode ≤ firstMode p f ids a.bid y := by
          intro x y hxy hy hax hix
          induction y with
          | zero => omega
          | succ y ih =>
            rw [firstMode_succ]
            rcases Nat.lt_succ_iff_lt_or_eq.1 hxy with h' | rfl
            · have := ih h' (by omega); omega
            · rw [if_pos ⟨hax, hix⟩]
        rcases Nat.lt_trichotomy i i' with hlt | rfl | hgt
        · have := mono i i' hlt (by omega) ha hid
          rw [(h.fields i hi ha).2.2.qc] at this; omega
        · exact ⟨rfl, by omega⟩
        · have := mono i' i hgt (by omega) ha' (h.fields i' hi' ha').1
          rw [(h.fields i' hi' ha').2.2.qc] at this; omega
      obtain ⟨rfl, rfl⟩ := key
      exact fun q m => rfl
    · refine ⟨fun _ _ => 0, fun i hi ha d hd heq => ?_⟩
      exfalso
      have hd' : d < p.qComp a.bid (f i).mode := by rw [(h.fields i hi ha).2.2.qc]; exact hd
      have := (List.getElem?_eq_some_iff.1 (dirModes_get (p := p) (bid := a.bid) hi ha (h.fields i hi ha).1 hd')).1
      unfold firstMode at hE heq this
      omega
  choose G hG using hex
  unfold assembledBasis
  rw [h.rid]
  simp only [hP, hQ, hlen]
  have key := loop3_sets (A := op.Q) (B := (S.D r).es) (C := a.modes.length) (L := op.Q * (S.D r).es * a.modes.length)
    (body := fun q n e v =>
      match (dirs (p.qComp a.bid) none 0 a.modes)[e]? with
      | none => .ub
      | some m => do
        let B ← basisPtr p a.bid m.1 (ident (S.D r).es op.Q)
        let x ← B.rd (m.2.2 * op.Q * (S.D r).es + (q * (S.D r).es + n))
        v.wr ((a.modes.length * q + e) * (S.D r).es + n) x)
    (pos := fun q n e => (a.modes.length * q + e) * (S.D r).es + n)
    (X := fun q n e => G e q n)
    (fun x => G (x / (S.D r).es % a.modes.length) (x / (S.D r).es / a.modes.length) (x % (S.D r).es)) ?_ ?_ ?_
  · obtain ⟨V, e1, e2, e3, _⟩ := key ⟨_, fun _ => 0⟩ rfl
    refine ⟨V, e1, e2, ?_⟩
    intro i hi ha d hd q hq m hm
    have hE : firstMode p f ids a.bid i + d < a.modes.length := by
      obtain ⟨o, ho⟩ := hget i hi ha d hd
      have := (List.getElem?_eq_some_iff.1 ho).1
      rwa [hlen] at this
    rw [e3 _ ⟨q, hq, m, hm, _, hE, by rw [Nat.mul_comm q]⟩]
    simp only [div_enc hm, mod_enc hm, div_enc hE, mod_enc hE]
    exact hG _ i hi ha d hd rfl q m
  · intro q hq m hm e he v hv
    rw [h.len] at he
    obtain ⟨i, hi, ha, hid, d, hd, rfl⟩ := firstMode_surj he
    have ff := (h.fields i hi ha).2.2
    rw [ff.qc] at hd
    obtain ⟨o, ho⟩ := hget i hi ha d hd
    obtain ⟨B, b1, b2, b3⟩ := ff.ptr
    rw [h.dat hi ha] at b1 b2 b3
    simp only [ho]
    rw [b1, Res.bind_ok, Buf.rd_lt, Res.bind_ok, b3 d q m hq hm hd, hG _ i hi ha d hd rfl q m]
    have h1 : (d * op.Q + q) * (S.D r).es + m < (f i).qc * op.Q * (S.D r).es := enc_lt (enc_lt hd hq) hm
    have h2 : (d * op.Q + q) * (S.D r).es + m = d * op.Q * (S.D r).es + (q * (S.D r).es + m) := by ring
    omega
  · intro q hq m hm e he
    have h1 : (q * a.modes.length + e) * (S.D r).es + m < op.Q * a.modes.length * (S.D r).es := enc_lt (enc_lt hq he) hm
    rw [Nat.mul_comm _ q]
    calc _ < op.Q * a.modes.length * (S.D r).es := h1
      _ = _ := by ring
  · intro q hq m hm e he
    simp only [Nat.mul_comm _ q, div_enc hm, mod_enc hm, div_enc he, mod_enc he]

end Operator
end Verif
