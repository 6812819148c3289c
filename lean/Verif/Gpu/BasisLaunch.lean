import Verif.Gpu.BasisKernel

/-!
# Launches of the tensor kernels (helper lemmas)
-/

namespace Verif.Gpu
open Verif.Basis (kron)
open Finset (range)

variable {α : Type} [CommRing α]

/-- The table of `Interp` goes to shared memory. -/
def loadI (n b : Nat) : Job α where
  n := n
  body k := do
    let x ← rd (.table 0) (k : Nat)
    wr (.shared b 0) (k : Nat) x
  outs k a i := a = .shared b 0 ∧ i = k
  ro a _ := a = .table 0
  eff s a i := if a = .shared b 0 ∧ i < n then s (.table 0) i else s a i

/-- The tables of `Grad` go to shared memory. -/
def loadG (n b : Nat) : Job α where
  n := n
  body k := do
    let x ← rd (.table 0) (k : Nat)
    wr (.shared b 0) (k : Nat) x
    let y ← rd (.table 1) (k : Nat)
    wr (.shared b 3) (k : Nat) y
  outs k a i := (a = .shared b 0 ∨ a = .shared b 3) ∧ i = k
  ro a _ := a = .table 0 ∨ a = .table 1
  eff s a i := if a = .shared b 0 ∧ i < n then s (.table 0) i else if a = .shared b 3 ∧ i < n then s (.table 1) i else s a i

omit [CommRing α] in
theorem loadI_ok {n b : Nat} {len : Arr → Nat} (h0 : n ≤ len (.table 0)) (h1 : n ≤ len (.shared b 0)) :
    (loadI (α := α) n b).Ok len := by
  refine ⟨fun k _ k' _ a i h h' => h.2.symm.trans h'.2, fun k _ a i h hr => ?_, fun k hk own ho => ?_, fun k hk s => ?_,
    fun k hk s s' h a i ho => ?_, fun s a i h => ?_⟩
  · obtain ⟨rfl, -⟩ := h
    cases hr
  · have hk : k < n := hk
    exact safeP_bind (safeP_rd ⟨by omega, by omega⟩ (.inr rfl)) fun x =>
      safeP_wr ⟨by omega, by omega⟩ (ho _ _ ⟨rfl, rfl⟩)
  · refine ⟨_, big_bind (big_rd _ _ _) (big_wr _ _ _ _), fun a i h => ?_, fun a i h => upd_other _ _ h⟩
    obtain ⟨rfl, rfl⟩ := h
    show upd s (.shared b 0) i (s (.table 0) i) (.shared b 0) i = if Arr.shared b 0 = .shared b 0 ∧ i < n then _ else _
    rw [upd_same, if_pos ⟨rfl, hk⟩]
  · obtain ⟨rfl, rfl⟩ := ho
    show (if Arr.shared b 0 = .shared b 0 ∧ i < n then s (.table 0) i else s (.shared b 0) i) =
      if Arr.shared b 0 = .shared b 0 ∧ i < n then s' (.table 0) i else s' (.shared b 0) i
    rw [h _ _ (.inr rfl), h _ _ (.inl ⟨rfl, rfl⟩)]
  · exact if_neg fun hh => h i hh.2 ⟨hh.1, rfl⟩

omit [CommRing α] in
theorem loadG_ok {n b : Nat} {len : Arr → Nat} (h0 : n ≤ len (.table 0)) (h0' : n ≤ len (.table 1))
    (h1 : n ≤ len (.shared b 0)) (h3 : n ≤ len (.shared b 3)) : (loadG (α := α) n b).Ok len := by
  refine ⟨fun k _ k' _ a i h h' => h.2.symm.trans h'.2, fun k _ a i h hr => ?_, fun k hk own ho => ?_, fun k hk s => ?_,
    fun k hk s s' h a i ho => ?_, fun s a i h => ?_⟩
  · obtain ⟨rfl | rfl, -⟩ := h <;> rcases hr with h | h <;> cases h
  · have hk : k < n := hk
    exact safeP_bind (safeP_rd ⟨by omega, by omega⟩ (.inr (.inl rfl))) fun x =>
      safeP_bind (safeP_wr ⟨by omega, by omega⟩ (ho _ _ ⟨.inl rfl, rfl⟩)) fun _ =>
      safeP_bind (safeP_rd ⟨by omega, by omega⟩ (.inr (.inr rfl))) fun x =>
      safeP_wr ⟨by omega, by omega⟩ (ho _ _ ⟨.inr rfl, rfl⟩)
  · refine ⟨_, big_bind (big_rd _ _ _) (big_bind (big_wr _ _ _ _) (big_bind (big_rd _ _ _) (big_wr _ _ _ _))),
      fun a i h => ?_, fun a i h => ?_⟩
    · obtain ⟨ha, rfl⟩ := h
      have hk : i < n := hk
      rcases ha with rfl | rfl
      · show upd (upd s (.shared b 0) i (s (.table 0) i)) (.shared b 3) i _ (.shared b 0) i =
          if Arr.shared b 0 = .shared b 0 ∧ i < n then _ else _
        rw [if_pos ⟨rfl, hk⟩, upd_other _ _ (by simp), upd_same]
      · show upd (upd s (.shared b 0) i (s (.table 0) i)) (.shared b 3) i
          (upd s (.shared b 0) i (s (.table 0) i) (.table 1) i) (.shared b 3) i =
          if Arr.shared b 3 = .shared b 0 ∧ i < n then _ else if Arr.shared b 3 = .shared b 3 ∧ i < n then _ else _
        rw [if_neg (by simp), if_pos ⟨rfl, hk⟩, upd_same, upd_other _ _ (by simp)]
    · exact (upd_other _ _ fun hh => h ⟨.inr hh.1, hh.2⟩).trans (upd_other _ _ fun hh => h ⟨.inl hh.1, hh.2⟩)
  · obtain ⟨ha, rfl⟩ := ho
    show (if a = .shared b 0 ∧ i < n then s (.table 0) i else if a = .shared b 3 ∧ i < n then s (.table 1) i else s a i) =
      if a = .shared b 0 ∧ i < n then s' (.table 0) i else if a = .shared b 3 ∧ i < n then s' (.table 1) i else s' a i
    rw [h _ _ (.inr (.inl rfl)), h (.table 1) _ (.inr (.inr rfl)), h a _ (.inl ⟨ha, rfl⟩)]
  · show (if a = .shared b 0 ∧ i < n then _ else if a = .shared b 3 ∧ i < n then _ else _) = _
    rw [if_neg fun hh => h i hh.2 ⟨.inl hh.1, rfl⟩, if_neg fun hh => h i hh.2 ⟨.inr hh.1, rfl⟩]

/-- A kernel that loads and loops over elements, components and directions. -/
theorem tk_kern (k : TK) (load : Job α) (b t : Nat) {m : K α Unit}
    (hm : m = phases ((strideList k.ne k.G k.ne b).flatMap fun e => (List.range k.nc).flatMap fun c =>
      (List.range k.nd).flatMap fun c1 => ((k.sweep b e c c1).jobs b k.dim k.P k.Q k.s0 k.s1 k.tr).map
        fun j => j.seg k.B t)) :
    (do load.seg k.B t; m) = runAll ((k.jobs load b).map fun j => j.seg k.B t) := by
  have e : ((k.sweeps b).flatMap fun w => w.jobs b k.dim k.P k.Q k.s0 k.s1 k.tr).map (fun j : Job α => j.seg k.B t) =
      (strideList k.ne k.G k.ne b).flatMap fun e => (List.range k.nc).flatMap fun c =>
      (List.range k.nd).flatMap fun c1 => ((k.sweep b e c c1).jobs b k.dim k.P k.Q k.s0 k.s1 k.tr).map
        fun j => j.seg k.B t := by
    unfold TK.sweeps
    simp only [List.map_flatMap, List.flatMap_assoc, List.flatMap_map]
  rw [hm, TK.jobs, List.map_cons, e]
  rfl

theorem pow_le_pow_max {a b M : Nat} (ha : a ≤ M) (hb : b ≤ M) (n m : Nat) : a ^ n * b ^ m ≤ M ^ (n + m) := by
  rw [pow_add]
  exact Nat.mul_le_mul (Nat.pow_le_pow_left ha n) (Nat.pow_le_pow_left hb m)

/-- The buffers are large enough. -/
theorem buf_enough {P Q M dim d : Nat} (hP : P ≤ M) (hQ : Q ≤ M) (h0 : 0 < d) (hd : d < dim) :
    P ^ (dim - d) * Q ^ d ≤ Q * M ^ (dim - 1) ∧ Q ^ (dim - d) * P ^ d ≤ Q * M ^ (dim - 1) := by
  constructor
  · have h := pow_le_pow_max hP hQ (dim - d) (d - 1)
    rw [show dim - d + (d - 1) = dim - 1 by omega] at h
    calc P ^ (dim - d) * Q ^ d = Q * (P ^ (dim - d) * Q ^ (d - 1)) := by
          conv_lhs => rw [show d = d - 1 + 1 by omega]
          rw [pow_succ, show dim - (d - 1 + 1) = dim - d by omega]
          ring
      _ ≤ _ := Nat.mul_le_mul_left _ h
  · have h := pow_le_pow_max hQ hP (dim - d - 1) d
    rw [show dim - d - 1 + d = dim - 1 by omega] at h
    calc Q ^ (dim - d) * P ^ d = Q * (Q ^ (dim - d - 1) * P ^ d) := by
          conv_lhs => rw [show dim - d = dim - d - 1 + 1 by omega]
          rw [pow_succ]
          ring
      _ ≤ _ := Nat.mul_le_mul_left _ h

/-- Parameters of a launch. -/
def tkOf (dim nc P1 Q1 ne : Nat) (tr : Bool) (G B nd : Nat) (op : Nat → Nat → Nat → Arr) : TK :=
  if tr then ⟨G, B, ne, nc, nd, dim, Q1, P1, 1, P1, nc * ne, 0, true, op⟩
  else ⟨G, B, ne, nc, nd, dim, P1, Q1, P1, 1, 0, nc * ne, false, op⟩

/-- `Interp` is a sequence of jobs. -/
theorem interpKernel_eq {dim nc P1 Q1 ne : Nat} (hP : 0 < P1) (hQ : 0 < Q1) (tr : Bool) (G B b t : Nat) :
    interpKernel (α := α) dim nc P1 Q1 ne tr G B b t =
      runAll (((tkOf dim nc P1 Q1 ne tr G B 1 fun b _ _ => .shared b 0).jobs (loadI (Q1 * P1) b) b).map
        fun j => j.seg B t) := by
  cases tr
  · refine tk_kern ⟨G, B, ne, nc, 1, dim, P1, Q1, P1, 1, 0, nc * ne, false, fun b _ _ => .shared b 0⟩ (loadI (Q1 * P1) b)
      b t (forIn_phases (β := Nat) fun e he => forIn_phases (β := Nat) fun c hc => ?_)
    show dirLoop B b t dim P1 Q1 P1 1 (P1 ^ dim) false _ (.u, e * P1 ^ dim + c * (ne * P1 ^ dim))
      (.v, e * Q1 ^ dim + c * (ne * Q1 ^ dim)) = _
    rw [dirLoop_phases hP]
    simp only [List.range_one, List.flatMap_cons, List.flatMap_nil, List.append_nil, Sweep.jobs, TK.sweep]
    rw [show e * P1 ^ dim + c * (ne * P1 ^ dim) = (e + 0 * 0 + c * ne) * P1 ^ dim by ring,
      show e * Q1 ^ dim + c * (ne * Q1 ^ dim) = (e + 0 * (nc * ne) + c * ne) * Q1 ^ dim by ring]
  · refine tk_kern ⟨G, B, ne, nc, 1, dim, Q1, P1, 1, P1, nc * ne, 0, true, fun b _ _ => .shared b 0⟩ (loadI (Q1 * P1) b)
      b t (forIn_phases (β := Nat) fun e he => forIn_phases (β := Nat) fun c hc => ?_)
    show dirLoop B b t dim Q1 P1 1 P1 (Q1 ^ dim) true _ (.u, e * Q1 ^ dim + c * (ne * Q1 ^ dim))
      (.v, e * P1 ^ dim + c * (ne * P1 ^ dim)) = _
    rw [dirLoop_phases hQ]
    simp only [List.range_one, List.flatMap_cons, List.flatMap_nil, List.append_nil, Sweep.jobs, TK.sweep]
    rw [show e * Q1 ^ dim + c * (ne * Q1 ^ dim) = (e + 0 * (nc * ne) + c * ne) * Q1 ^ dim by ring,
      show e * P1 ^ dim + c * (ne * P1 ^ dim) = (e + 0 * 0 + c * ne) * P1 ^ dim by ring]

/-- The table used in a direction. -/
def opG (b dim1 dim2 : Nat) : Arr := if dim1 = dim2 then .shared b 3 else .shared b 0

/-- `Grad` is a sequence of jobs. -/
theorem gradKernel_eq {dim nc P1 Q1 ne : Nat} (hP : 0 < P1) (hQ : 0 < Q1) (tr : Bool) (G B b t : Nat) :
    gradKernel (α := α) dim nc P1 Q1 ne tr G B b t =
      runAll (((tkOf dim nc P1 Q1 ne tr G B dim opG).jobs (loadG (Q1 * P1) b) b).map fun j => j.seg B t) := by
  cases tr
  · refine tk_kern ⟨G, B, ne, nc, dim, dim, P1, Q1, P1, 1, 0, nc * ne, false, opG⟩ (loadG (Q1 * P1) b)
      b t (forIn_phases (β := Nat) fun e he => forIn_phases (β := Nat) fun c hc => forIn_phases (β := Nat) fun c1 hc1 => ?_)
    show dirLoop B b t dim P1 Q1 P1 1 (P1 ^ dim) false _ (.u, e * P1 ^ dim + c1 * 0 + c * (ne * P1 ^ dim))
      (.v, e * Q1 ^ dim + c1 * (ne * Q1 ^ dim * nc) + c * (ne * Q1 ^ dim)) = _
    rw [dirLoop_phases hP]
    simp only [Sweep.jobs, TK.sweep]
    rw [show e * P1 ^ dim + c1 * 0 + c * (ne * P1 ^ dim) = (e + c1 * 0 + c * ne) * P1 ^ dim by ring,
      show e * Q1 ^ dim + c1 * (ne * Q1 ^ dim * nc) + c * (ne * Q1 ^ dim) = (e + c1 * (nc * ne) + c * ne) * Q1 ^ dim by ring]
    rfl
  · refine tk_kern ⟨G, B, ne, nc, dim, dim, Q1, P1, 1, P1, nc * ne, 0, true, opG⟩ (loadG (Q1 * P1) b)
      b t (forIn_phases (β := Nat) fun e he => forIn_phases (β := Nat) fun c hc => forIn_phases (β := Nat) fun c1 hc1 => ?_)
    show dirLoop B b t dim Q1 P1 1 P1 (Q1 ^ dim) true _ (.u, e * Q1 ^ dim + c1 * (ne * Q1 ^ dim * nc) + c * (ne * Q1 ^ dim))
      (.v, e * P1 ^ dim + c1 * 0 + c * (ne * P1 ^ dim)) = _
    rw [dirLoop_phases hQ]
    simp only [Sweep.jobs, TK.sweep]
    rw [show e * P1 ^ dim + c1 * 0 + c * (ne * P1 ^ dim) = (e + c1 * 0 + c * ne) * P1 ^ dim by ring,
      show e * Q1 ^ dim + c1 * (ne * Q1 ^ dim * nc) + c * (ne * Q1 ^ dim) = (e + c1 * (nc * ne) + c * ne) * Q1 ^ dim by ring]
    rfl

section
variable {dim nc P1 Q1 ne G B : Nat} {m : Mem α}

/-- Sizes of the memory of a launch with `nd` derivative directions. -/
structure TMem (dim nc P1 Q1 ne nd : Nat) (tr : Bool) (m : Mem α) : Prop where
  t0 : Q1 * P1 ≤ m.len (.table 0)
  t1 : Q1 * P1 ≤ m.len (.table 1)
  s0 : ∀ b, Q1 * P1 ≤ m.len (.shared b 0)
  s3 : ∀ b, Q1 * P1 ≤ m.len (.shared b 3)
  s1 : ∀ b, Q1 * max P1 Q1 ^ (dim - 1) ≤ m.len (.shared b 1)
  s2 : ∀ b, Q1 * max P1 Q1 ^ (dim - 1) ≤ m.len (.shared b 2)
  u : (if tr then nd * (nc * ne) * Q1 ^ dim else nc * ne * P1 ^ dim) ≤ m.len .u
  v : (if tr then nc * ne * P1 ^ dim else nd * (nc * ne) * Q1 ^ dim) ≤ m.len .v

theorem nodes_le {nc ne e c N : Nat} (he : e < ne) (hc : c < nc) (x : Nat) :
    (e + x * 0 + c * ne) * N + N ≤ nc * ne * N := by
  have := enc_lt hc he
  rw [show (e + x * 0 + c * ne) * N + N = (c * ne + e + 1) * N by ring]
  exact Nat.mul_le_mul_right _ this

theorem quads_le {nc ne e c nd x N : Nat} (he : e < ne) (hc : c < nc) (hx : x < nd) :
    (e + x * (nc * ne) + c * ne) * N + N ≤ nd * (nc * ne) * N := by
  have := enc_lt (enc_lt hx hc) he
  rw [show (e + x * (nc * ne) + c * ne) * N + N = ((x * nc + c) * ne + e + 1) * N by ring,
    show nd * (nc * ne) = nd * nc * ne by ring]
  exact Nat.mul_le_mul_right _ this

/-- The entry of the table in direction `d`. -/
def tabI (P1 : Nat) (m : Mem α) (_ _ q n : Nat) : α := m.val (.table 0) (q * P1 + n)

def tabG (P1 : Nat) (m : Mem α) (c1 d q n : Nat) : α := m.val (.table (if c1 = d then 1 else 0)) (q * P1 + n)

theorem tkI_ok (hG : 0 < G) (hB : 0 < B) (hdim : 0 < dim) (hP : 0 < P1) (hQ : 0 < Q1)
    (hm : TMem dim nc P1 Q1 ne 1 false m) :
    (tkOf dim nc P1 Q1 ne false G B 1 fun b _ _ => .shared b 0).Ok m (fun b => loadI (Q1 * P1) b) (tabI P1 m) where
  G := hG
  B := hB
  dim := hdim
  P := hP
  Q := hQ
  op b _ _ := .inl rfl
  opLen b c1 d _ j hj c hc := by
    have := enc_lt (show j < Q1 from hj) (show c < P1 from hc)
    show j * P1 + c * 1 < m.len (.shared b 0)
    have := hm.s0 b
    omega
  uLen e he c hc c1 _ := (nodes_le (nc := nc) he hc c1).trans hm.u
  vLen e he c hc c1 h1 := (quads_le (nc := nc) he hc h1).trans hm.v
  buf1 b d h0 hd := (buf_enough (le_max_left _ _) (le_max_right _ _) h0 hd).1.trans (hm.s1 b)
  buf2 b d h0 hd := (buf_enough (le_max_left _ _) (le_max_right _ _) h0 hd).1.trans (hm.s2 b)
  loadOk b := loadI_ok hm.t0 (hm.s0 b)
  loadOut b x a i h := .inl h.1
  loadRo b a i h := ⟨0, h⟩
  loadEff b c1 d _ j hj c hc := by
    have := enc_lt (show j < Q1 from hj) (show c < P1 from hc)
    show (if Arr.shared b 0 = .shared b 0 ∧ j * P1 + c * 1 < Q1 * P1 then m.val (.table 0) (j * P1 + c * 1) else _) = _
    rw [Nat.mul_one, if_pos ⟨rfl, this⟩]
    rfl

theorem tkIT_ok (hG : 0 < G) (hB : 0 < B) (hdim : 0 < dim) (hP : 0 < P1) (hQ : 0 < Q1)
    (hm : TMem dim nc P1 Q1 ne 1 true m) :
    (tkOf dim nc P1 Q1 ne true G B 1 fun b _ _ => .shared b 0).Ok m (fun b => loadI (Q1 * P1) b)
      (fun c1 d n q => tabI P1 m c1 d q n) where
  G := hG
  B := hB
  dim := hdim
  P := hQ
  Q := hP
  op b _ _ := .inl rfl
  opLen b c1 d _ j hj c hc := by
    have := enc_lt (show c < Q1 from hc) (show j < P1 from hj)
    show j * 1 + c * P1 < m.len (.shared b 0)
    have := hm.s0 b
    omega
  uLen e he c hc c1 h1 := (quads_le (nc := nc) he hc h1).trans hm.u
  vLen e he c hc c1 _ := (nodes_le (nc := nc) he hc c1).trans hm.v
  buf1 b d h0 hd := (buf_enough (le_max_left _ _) (le_max_right _ _) h0 hd).2.trans (hm.s1 b)
  buf2 b d h0 hd := (buf_enough (le_max_left _ _) (le_max_right _ _) h0 hd).2.trans (hm.s2 b)
  loadOk b := loadI_ok hm.t0 (hm.s0 b)
  loadOut b x a i h := .inl h.1
  loadRo b a i h := ⟨0, h⟩
  loadEff b c1 d _ j hj c hc := by
    have := enc_lt (show c < Q1 from hc) (show j < P1 from hj)
    show (if Arr.shared b 0 = .shared b 0 ∧ j * 1 + c * P1 < Q1 * P1 then m.val (.table 0) (j * 1 + c * P1) else _) = _
    rw [Nat.mul_one, Nat.add_comm j, if_pos ⟨rfl, this⟩]
    rfl

theorem opG_cases (b c1 d : Nat) : opG b c1 d = .shared b 0 ∨ opG b c1 d = .shared b 3 := by
  unfold opG
  split
  · exact .inr rfl
  · exact .inl rfl

omit [CommRing α] in
theorem loadG_eff {n b c1 d i : Nat} (hi : i < n) (s : Vals α) :
    (loadG n b).eff s (opG b c1 d) i = s (.table (if c1 = d then 1 else 0)) i := by
  show (if opG b c1 d = .shared b 0 ∧ i < n then _ else if opG b c1 d = .shared b 3 ∧ i < n then _ else _) = _
  unfold opG
  by_cases h : c1 = d
  · simp [h, hi]
  · simp [h, hi]

theorem tkG_ok (hG : 0 < G) (hB : 0 < B) (hdim : 0 < dim) (hP : 0 < P1) (hQ : 0 < Q1)
    (hm : TMem dim nc P1 Q1 ne dim false m) :
    (tkOf dim nc P1 Q1 ne false G B dim opG).Ok m (fun b => loadG (Q1 * P1) b) (tabG P1 m) where
  G := hG
  B := hB
  dim := hdim
  P := hP
  Q := hQ
  op := opG_cases
  opLen b c1 d _ j hj c hc := by
    have := enc_lt (show j < Q1 from hj) (show c < P1 from hc)
    show j * P1 + c * 1 < m.len (opG b c1 d)
    have h0 := hm.s0 b
    have h3 := hm.s3 b
    rcases opG_cases b c1 d with h | h <;> rw [h] <;> omega
  uLen e he c hc c1 _ := (nodes_le (nc := nc) he hc c1).trans hm.u
  vLen e he c hc c1 h1 := (quads_le (nc := nc) he hc h1).trans hm.v
  buf1 b d h0 hd := (buf_enough (le_max_left _ _) (le_max_right _ _) h0 hd).1.trans (hm.s1 b)
  buf2 b d h0 hd := (buf_enough (le_max_left _ _) (le_max_right _ _) h0 hd).1.trans (hm.s2 b)
  loadOk b := loadG_ok hm.t0 hm.t1 (hm.s0 b) (hm.s3 b)
  loadOut b x a i h := h.1
  loadRo b a i h := h.elim (fun h => ⟨0, h⟩) fun h => ⟨1, h⟩
  loadEff b c1 d _ j hj c hc := by
    have := enc_lt (show j < Q1 from hj) (show c < P1 from hc)
    show (loadG (Q1 * P1) b).eff m.val (opG b c1 d) (j * P1 + c * 1) = _
    rw [Nat.mul_one, loadG_eff this]
    rfl

theorem tkGT_ok (hG : 0 < G) (hB : 0 < B) (hdim : 0 < dim) (hP : 0 < P1) (hQ : 0 < Q1)
    (hm : TMem dim nc P1 Q1 ne dim true m) :
    (tkOf dim nc P1 Q1 ne true G B dim opG).Ok m (fun b => loadG (Q1 * P1) b)
      (fun c1 d n q => tabG P1 m c1 d q n) where
  G := hG
  B := hB
  dim := hdim
  P := hQ
  Q := hP
  op := opG_cases
  opLen b c1 d _ j hj c hc := by
    have := enc_lt (show c < Q1 from hc) (show j < P1 from hj)
    show j * 1 + c * P1 < m.len (opG b c1 d)
    have h0 := hm.s0 b
    have h3 := hm.s3 b
    rcases opG_cases b c1 d with h | h <;> rw [h] <;> omega
  uLen e he c hc c1 h1 := (quads_le (nc := nc) he hc h1).trans hm.u
  vLen e he c hc c1 _ := (nodes_le (nc := nc) he hc c1).trans hm.v
  buf1 b d h0 hd := (buf_enough (le_max_left _ _) (le_max_right _ _) h0 hd).2.trans (hm.s1 b)
  buf2 b d h0 hd := (buf_enough (le_max_left _ _) (le_max_right _ _) h0 hd).2.trans (hm.s2 b)
  loadOk b := loadG_ok hm.t0 hm.t1 (hm.s0 b) (hm.s3 b)
  loadOut b x a i h := h.1
  loadRo b a i h := h.elim (fun h => ⟨0, h⟩) fun h => ⟨1, h⟩
  loadEff b c1 d _ j hj c hc := by
    have := enc_lt (show c < Q1 from hc) (show j < P1 from hj)
    show (loadG (Q1 * P1) b).eff m.val (opG b c1 d) (j * 1 + c * P1) = _
    rw [Nat.mul_one, Nat.add_comm j, loadG_eff this]
    rfl

end

end Verif.Gpu
