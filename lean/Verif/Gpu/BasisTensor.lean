import Verif.Gpu.Basis
import Verif.Gpu.Jobs
import Verif.Gpu.Kernels
import Verif.Basis.Chain

/-!
# The tensor kernels as sequences of jobs (helper lemmas)
-/

namespace Verif.Gpu
open Verif.Basis (contr kron contr_step)
open Finset (range)

variable {α : Type} [CommRing α]

/-! ## One contraction -/

/-- The loop over the entries of one contraction. -/
def contrJob (P Q pre post s0 s1 : Nat) (acc : Bool) (op : Arr) (inp out : Ptr) : Job α where
  n := pre * post * Q
  body := cellBody P Q post s0 s1 acc op inp out
  outs k a i := a = out.1 ∧ i = out.2 + k
  ro a _ := a = op ∨ a = inp.1
  eff s a i := if a = out.1 ∧ out.2 ≤ i ∧ i < out.2 + pre * post * Q then
      (if acc = true then s a i else 0) +
        contr P post Q (fun j b => s op (j * s0 + b * s1)) (fun y => s inp.1 (inp.2 + y)) (i - out.2)
    else s a i

theorem foldl_sum (n : Nat) (f : Nat → α) (z : α) : (List.range n).foldl (fun y x => y + f x) z = z + ∑ i ∈ range n, f i := by
  induction n with
  | zero => simp
  | succ n ih => rw [List.range_succ, List.foldl_append, ih, Finset.sum_range_succ, List.foldl_cons, List.foldl_nil, add_assoc]

theorem cell_big (P Q post s0 s1 : Nat) (acc : Bool) (op : Arr) (inp out : Ptr) (k : Nat) (s : Vals α) :
    Big (cellBody P Q post s0 s1 acc op inp out k) s () (upd s out.1 (out.2 + k)
      ((if acc = true then s out.1 (out.2 + k) else 0) +
        contr P post Q (fun j b => s op (j * s0 + b * s1)) (fun y => s inp.1 (inp.2 + y)) k)) := by
  unfold cellBody
  have hsum : Big (forN P (fun b vk => (do
      let x ← rd op ((k / post % Q * s0 + b * s1 : Nat) : Int)
      let y ← rd inp.1 ((inp.2 + ((k / (post * Q) * P + b) * post + k % post) : Nat) : Int)
      pure (vk + x * y) : K α α)) 0) s
      (contr P post Q (fun j b => s op (j * s0 + b * s1)) (fun y => s inp.1 (inp.2 + y)) k) s := by
    have h := big_forIn_pure (l := List.range P) (s := s) (body := fun b vk => (do
      let x ← rd op ((k / post % Q * s0 + b * s1 : Nat) : Int)
      let y ← rd inp.1 ((inp.2 + ((k / (post * Q) * P + b) * post + k % post) : Nat) : Int)
      pure (vk + x * y) : K α α))
      (g := fun b vk => vk + s op (k / post % Q * s0 + b * s1) * s inp.1 (inp.2 + ((k / (post * Q) * P + b) * post + k % post)))
      (fun b _ vk => big_bind (big_rd _ _ _) (big_bind (big_rd _ _ _) (big_pure _ _))) 0
    rw [foldl_sum (f := fun b => s op (k / post % Q * s0 + b * s1) *
      s inp.1 (inp.2 + ((k / (post * Q) * P + b) * post + k % post))), zero_add] at h
    unfold contr
    simp only [Nat.div_div_eq_div_mul]
    exact h
  refine big_bind hsum ?_
  cases acc with
  | true =>
    simp only [if_true]
    exact big_bind (big_rd _ _ _) (big_wr _ _ _ _)
  | false =>
    rw [if_neg (by simp), if_neg (by simp), zero_add]
    exact big_wr _ _ _ _

theorem contr_congr {P post Q : Nat} {T T' : Nat → Nat → α} {U U' : Nat → α} {y : Nat} (hT : ∀ j b, T j b = T' j b)
    (hU : ∀ i, U i = U' i) : contr P post Q T U y = contr P post Q T' U' y := by
  unfold contr
  exact Finset.sum_congr rfl fun b _ => by rw [hT, hU]

theorem contrJob_ok {P Q pre post s0 s1 : Nat} {acc : Bool} {op : Arr} {inp out : Ptr} {len : Arr → Nat}
    (hop : ∀ j < Q, ∀ b < P, j * s0 + b * s1 < len op) (hinp : inp.2 + pre * P * post ≤ len inp.1)
    (hout : out.2 + pre * post * Q ≤ len out.1) (h1 : out.1 ≠ op) (h2 : out.1 ≠ inp.1) :
    (contrJob (α := α) P Q pre post s0 s1 acc op inp out).Ok len := by
  refine ⟨?_, ?_, ?_, ?_, ?_, ?_⟩
  · rintro k - k' - a i ⟨-, e⟩ ⟨-, e'⟩
    omega
  · rintro k - a i ⟨rfl, -⟩ (h | h)
    · exact h1 h
    · exact h2 h
  · intro k hk own ho
    have hk' : k < pre * post * Q := hk
    have hQ : 0 < Q := Nat.pos_of_ne_zero fun h => by simp [h] at hk'
    have hp : 0 < post := Nat.pos_of_ne_zero fun h => by simp [h] at hk'
    have hob : InB len out.1 ((out.2 + k : Nat) : Int) := ⟨by omega, by omega⟩
    have hoo : own out.1 ((out.2 + k : Nat) : Int).toNat := ho _ _ ⟨rfl, by simp; omega⟩
    have ha : k / (post * Q) < pre := by
      rw [Nat.div_lt_iff_lt_mul (by positivity), ← Nat.mul_assoc]
      exact hk'
    refine safeP_bind (safeP_forN (fun b hb vk => safeP_bind (safeP_rd ?_ (.inr (.inl rfl))) fun x =>
      safeP_bind (safeP_rd ?_ (.inr (.inr rfl))) fun y => safeP_pure _) _) fun vk => ?_
    · have := hop (k / post % Q) (Nat.mod_lt _ hQ) b hb
      exact ⟨by omega, by omega⟩
    · have := enc_lt (enc_lt ha hb) (Nat.mod_lt k hp)
      exact ⟨by omega, by omega⟩
    · show SafeP _ _ _ (if acc = true then _ else _)
      split
      · exact safeP_bind (safeP_rd hob (.inl hoo)) fun z => safeP_wr hob hoo
      · exact safeP_wr hob hoo
  · intro k hk s
    have hk' : k < pre * post * Q := hk
    refine ⟨_, cell_big P Q post s0 s1 acc op inp out k s, ?_, ?_⟩
    · rintro a i ⟨rfl, rfl⟩
      rw [upd_same]
      show _ = ite _ _ _
      rw [if_pos (show out.1 = out.1 ∧ out.2 ≤ out.2 + k ∧ out.2 + k < out.2 + pre * post * Q from
        ⟨rfl, by omega, by omega⟩), Nat.add_sub_cancel_left]
    · intro a i h
      exact upd_other _ _ h
  · rintro k hk s s' h a i ⟨rfl, rfl⟩
    show ite _ _ _ = ite _ _ _
    rw [h out.1 (out.2 + k) (.inl ⟨rfl, rfl⟩), contr_congr (U' := fun y => s' inp.1 (inp.2 + y))
      (T' := fun j b => s' op (j * s0 + b * s1)) (fun j b => h _ _ (.inr (.inl rfl))) fun y => h _ _ (.inr (.inr rfl))]
  · intro s a i h
    show ite _ _ _ = _
    rw [if_neg]
    rintro ⟨rfl, h1, h2⟩
    exact h (i - out.2) (show i - out.2 < pre * post * Q by omega) ⟨rfl, by omega⟩

/-! ## All directions -/

/-- The contraction in direction `d`. -/
def dirJob (b dim P Q s0 s1 : Nat) (tr : Bool) (op : Nat → Arr) (curU curV : Ptr) (d : Nat) : Job α :=
  contrJob P Q (P ^ (dim - 1 - d)) (Q ^ d) s0 s1 (tr && decide (d = dim - 1)) (op d) (inPtr b d curU) (outPtr b dim d curV)

/-- The contractions in all directions. -/
def dirJobs (b dim P Q s0 s1 : Nat) (tr : Bool) (op : Nat → Arr) (curU curV : Ptr) : List (Job α) :=
  (List.range dim).map (dirJob b dim P Q s0 s1 tr op curU curV)

theorem dirLoop_aux (B b t dim P Q s0 s1 : Nat) (tr : Bool) (op : Nat → Arr) (curU curV : Ptr) (hP : 0 < P) (n : Nat) :
    ∀ d, d + n = dim → forIn' (List.range' d n) (fun d (pp : Nat × Nat) => (do
      syncthreads
      let pre := pp.1 / P
      let post := pp.2
      strideFor (pre * post * Q) t B
        (cellBody P Q post s0 s1 (tr && decide (d = dim - 1)) (op d) (inPtr b d curU) (outPtr b dim d curV))
      pure (pre, post * Q) : K α (Nat × Nat))) (P ^ n, Q ^ d) =
    (do
      phases ((List.range' d n).map fun d => (dirJob b dim P Q s0 s1 tr op curU curV d).seg B t)
      pure (1, Q ^ dim)) := by
  induction n with
  | zero =>
    intro d hd
    have : d = dim := by omega
    subst this
    rw [pow_zero]
    rfl
  | succ n ih =>
    intro d hd
    have h := ih (d + 1) (by omega)
    rw [List.range'_succ, List.map_cons]
    simp only [forIn', phases]
    have e1 : P ^ (n + 1) / P = P ^ n := by rw [pow_succ, Nat.mul_div_cancel _ hP]
    have e2 : Q ^ d * Q = Q ^ (d + 1) := (pow_succ Q d).symm
    have e3 : dim - 1 - d = n := by omega
    simp only [e1, e2]
    funext k
    show syncthreads (fun _ => _) = syncthreads (fun _ => _)
    congr 1
    funext _
    show strideFor _ t B _ _ = (dirJob b dim P Q s0 s1 tr op curU curV d).seg B t _
    unfold Job.seg dirJob
    rw [e3]
    show strideFor _ t B _ _ = strideFor _ t B _ _
    congr 1
    funext _
    exact congrFun h k

theorem dirLoop_phases {B b t dim P Q s0 s1 : Nat} {tr : Bool} {op : Nat → Arr} {curU curV : Ptr} (hP : 0 < P) :
    dirLoop (α := α) B b t dim P Q s0 s1 (P ^ dim) tr op curU curV =
      phases ((dirJobs b dim P Q s0 s1 tr op curU curV).map fun j => j.seg B t) := by
  have h := dirLoop_aux (α := α) B b t dim P Q s0 s1 tr op curU curV hP dim 0 (by omega)
  unfold dirLoop forN dirJobs
  rw [List.range_eq_range', List.map_map]
  rw [pow_zero] at h
  simp only [h]
  rfl

/-! ## Effect of the contractions in all directions -/

theorem contr_step_one {P Q d A : Nat} {M : Nat → Nat → Nat → α} {U cur : Nat → α}
    (hcur : ∀ a < A * P, ∀ q < Q ^ d, cur (a * Q ^ d + q) =
      ∑ l ∈ range (P ^ d), kron M Q P d q l * U (a * P ^ d + l)) :
    ∀ a < A, ∀ q < Q ^ (d + 1), contr P (Q ^ d) Q (M d) cur (a * Q ^ (d + 1) + q) =
      ∑ l ∈ range (P ^ (d + 1)), kron M Q P (d + 1) q l * U (a * P ^ (d + 1) + l) := by
  intro a ha q hq
  have h := contr_step (P := P) (Q := Q) (ne := 1) (d := d) (A := A) (M := M) (U := U) (cur := cur)
    (fun a ha q hq e he => by
      have : e = 0 := by omega
      subst this
      simpa using hcur a ha q hq) a ha q hq 0 (by omega)
  simpa using h

theorem dir_inv {b dim P Q s0 s1 : Nat} {tr : Bool} {op : Nat → Arr} {uo vo : Nat} (s : Vals α)
    (hop : ∀ d, op d = .shared b 0 ∨ op d = .shared b 3) : ∀ d, d < dim →
    (∀ a, a ≠ .shared b 1 → a ≠ .shared b 2 →
      effs ((List.range d).map (dirJob b dim P Q s0 s1 tr op (.u, uo) (.v, vo))) s a = s a) ∧
    ∀ a < P ^ (dim - d), ∀ q < Q ^ d,
      effs ((List.range d).map (dirJob b dim P Q s0 s1 tr op (.u, uo) (.v, vo))) s (inPtr b d (.u, uo)).1
        ((inPtr b d (.u, uo)).2 + (a * Q ^ d + q)) =
      ∑ l ∈ range (P ^ d), kron (fun d j c => s (op d) (j * s0 + c * s1)) Q P d q l * s .u (uo + (a * P ^ d + l)) := by
  intro d
  induction d with
  | zero =>
    intro hd
    refine ⟨fun a _ _ => rfl, fun a ha q hq => ?_⟩
    have : q = 0 := by simpa using hq
    subst this
    simp [effs, inPtr, kron]
  | succ d ih =>
    intro hd
    obtain ⟨h1, h2⟩ := ih (by omega)
    rw [List.range_succ, List.map_append, effs_append]
    set st := effs ((List.range d).map (dirJob b dim P Q s0 s1 tr op (.u, uo) (.v, vo))) s with hst
    have hout : outPtr b dim d (.v, vo) = inPtr b (d + 1) (.u, uo) := by
      unfold outPtr inPtr
      rw [if_neg (show ¬ d = dim - 1 by omega), if_neg (show ¬ d + 1 = 0 by omega)]
      by_cases hpar : d % 2 = 0
      · rw [if_neg (by simp [hpar]), if_pos (by omega)]
      · rw [if_pos hpar, if_neg (by omega)]
    have hin : (inPtr b (d + 1) (.u, uo)) = (.shared b 1, 0) ∨ (inPtr b (d + 1) (.u, uo)) = (.shared b 2, 0) := by
      unfold inPtr
      rw [if_neg (show ¬ d + 1 = 0 by omega)]
      split
      · exact .inr rfl
      · exact .inl rfl
    have hz : (inPtr b (d + 1) (.u, uo)).2 = 0 := by rcases hin with h | h <;> rw [h]
    have heff : ∀ a i, effs [dirJob b dim P Q s0 s1 tr op (.u, uo) (.v, vo) d] st a i =
        if a = (inPtr b (d + 1) (.u, uo)).1 ∧ 0 ≤ i ∧ i < 0 + P ^ (dim - 1 - d) * Q ^ d * Q then
          0 + contr P (Q ^ d) Q (fun j c => st (op d) (j * s0 + c * s1))
            (fun y => st (inPtr b d (.u, uo)).1 ((inPtr b d (.u, uo)).2 + y)) i else st a i := by
      intro a i
      show (dirJob b dim P Q s0 s1 tr op (.u, uo) (.v, vo) d).eff st a i = _
      unfold dirJob contrJob
      simp only [hout, hz]
      have hacc : (tr && decide (d = dim - 1)) = false := by
        rw [decide_eq_false (by omega), Bool.and_false]
      simp only [hacc, Bool.false_eq_true, if_false, Nat.sub_zero]
    refine ⟨fun a ha1 ha2 => funext fun i => ?_, fun a ha q hq => ?_⟩
    · simp only [List.map_cons, List.map_nil]
      rw [heff, if_neg, h1 a ha1 ha2]
      rintro ⟨h, -⟩
      rcases hin with h' | h' <;> rw [h'] at h
      · exact ha1 h
      · exact ha2 h
    · simp only [List.map_cons, List.map_nil]
      have hlt : a * Q ^ (d + 1) + q < P ^ (dim - (d + 1)) * Q ^ (d + 1) := enc_lt ha hq
      have e1 : P ^ (dim - 1 - d) * Q ^ d * Q = P ^ (dim - (d + 1)) * Q ^ (d + 1) := by
        rw [show dim - 1 - d = dim - (d + 1) by omega]
        ring
      rw [heff, hz, Nat.zero_add, if_pos ⟨rfl, Nat.zero_le _, by rw [Nat.zero_add, e1]; exact hlt⟩, zero_add]
      have hM : ∀ j c, st (op d) (j * s0 + c * s1) = s (op d) (j * s0 + c * s1) := by
        intro j c
        rw [h1 (op d) (by rcases hop d with h | h <;> rw [h] <;> simp) (by rcases hop d with h | h <;> rw [h] <;> simp)]
      rw [contr_congr (fun j c => hM j c) (fun _ => rfl)]
      exact contr_step_one (M := fun d j c => s (op d) (j * s0 + c * s1)) (U := fun y => s .u (uo + y))
        (cur := fun y => st (inPtr b d (.u, uo)).1 ((inPtr b d (.u, uo)).2 + y)) (A := P ^ (dim - (d + 1)))
        (fun a ha q hq => h2 a (by rwa [show dim - d = (dim - (d + 1)) + 1 by omega, pow_succ]) q hq) a ha q hq

/-- One sweep: the contribution to the entries of the output it covers, with the input it reads. -/
def contrib (dim P Q s0 s1 : Nat) (op : Nat → Arr) (uo vo : Nat) (s : Vals α) (i : Nat) : α :=
  ∑ l ∈ range (P ^ dim), kron (fun d j c => s (op d) (j * s0 + c * s1)) Q P dim (i - vo) l * s .u (uo + l)

theorem sweep_eff {b dim P Q s0 s1 : Nat} {tr : Bool} {op : Nat → Arr} {uo vo : Nat} (hdim : 0 < dim)
    (hop : ∀ d, op d = .shared b 0 ∨ op d = .shared b 3) (s : Vals α) :
    (∀ a, a ≠ .v → a ≠ .shared b 1 → a ≠ .shared b 2 →
      effs (dirJobs b dim P Q s0 s1 tr op (.u, uo) (.v, vo)) s a = s a) ∧
    ∀ i, effs (dirJobs b dim P Q s0 s1 tr op (.u, uo) (.v, vo)) s .v i = if vo ≤ i ∧ i < vo + Q ^ dim then
      (if tr = true then s .v i else 0) + contrib dim P Q s0 s1 op uo vo s i else s .v i := by
  obtain ⟨n, rfl⟩ : ∃ n, dim = n + 1 := ⟨dim - 1, by omega⟩
  obtain ⟨h1, h2⟩ := dir_inv (P := P) (Q := Q) (s0 := s0) (s1 := s1) (tr := tr) (uo := uo) (vo := vo) s hop n
    (Nat.lt_succ_self n)
  unfold dirJobs
  rw [List.range_succ, List.map_append, effs_append]
  set st := effs ((List.range n).map (dirJob b (n + 1) P Q s0 s1 tr op (.u, uo) (.v, vo))) s with hst
  have hout : outPtr b (n + 1) n (.v, vo) = (.v, vo) := by
    unfold outPtr
    rw [if_pos (by omega)]
  have heff : ∀ a i, effs [dirJob b (n + 1) P Q s0 s1 tr op (.u, uo) (.v, vo) n] st a i =
      if a = .v ∧ vo ≤ i ∧ i < vo + Q ^ (n + 1) then
        (if tr = true then st a i else 0) + contr P (Q ^ n) Q (fun j c => st (op n) (j * s0 + c * s1))
          (fun y => st (inPtr b n (.u, uo)).1 ((inPtr b n (.u, uo)).2 + y)) (i - vo) else st a i := by
    intro a i
    show (dirJob b (n + 1) P Q s0 s1 tr op (.u, uo) (.v, vo) n).eff st a i = _
    unfold dirJob contrJob
    have e : P ^ (n + 1 - 1 - n) * Q ^ n * Q = Q ^ (n + 1) := by
      rw [show n + 1 - 1 - n = 0 by omega, pow_zero, one_mul, pow_succ]
    have hacc : (tr && decide (n = n + 1 - 1)) = tr := by
      rw [decide_eq_true (by omega), Bool.and_true]
    simp only [hout, e, hacc]
  refine ⟨fun a hv ha1 ha2 => funext fun i => ?_, fun i => ?_⟩
  · simp only [List.map_cons, List.map_nil]
    rw [heff, if_neg fun h => hv h.1, h1 a ha1 ha2]
  · simp only [List.map_cons, List.map_nil]
    rw [heff, h1 .v (by simp) (by simp)]
    by_cases hi : vo ≤ i ∧ i < vo + Q ^ (n + 1)
    · rw [if_pos ⟨rfl, hi⟩, if_pos hi]
      congr 1
      have hM : ∀ j c, st (op n) (j * s0 + c * s1) = s (op n) (j * s0 + c * s1) := by
        intro j c
        rw [h1 (op n) (by rcases hop n with h | h <;> rw [h] <;> simp) (by rcases hop n with h | h <;> rw [h] <;> simp)]
      rw [contr_congr (fun j c => hM j c) (fun _ => rfl)]
      have h := contr_step_one (M := fun d j c => s (op d) (j * s0 + c * s1)) (U := fun y => s .u (uo + y))
        (cur := fun y => st (inPtr b n (.u, uo)).1 ((inPtr b n (.u, uo)).2 + y)) (A := 1)
        (fun a ha q hq => h2 a (by rw [show n + 1 - n = 1 by omega, pow_one]; omega) q hq) 0 (by omega) (i - vo)
        (by omega)
      rw [Nat.zero_mul, Nat.zero_add] at h
      rw [h]
      unfold contrib
      refine Finset.sum_congr rfl fun l _ => ?_
      rw [Nat.zero_mul, Nat.zero_add]
    · rw [if_neg fun h => hi h.2, if_neg hi]

/-! ## Several sweeps -/

/-- Tables and positions of a sweep. -/
structure Sweep where
  op : Nat → Arr
  uo : Nat
  vo : Nat

/-- The jobs of a sweep. -/
def Sweep.jobs (b dim P Q s0 s1 : Nat) (tr : Bool) (w : Sweep) : List (Job α) :=
  dirJobs b dim P Q s0 s1 tr w.op (.u, w.uo) (.v, w.vo)

/-- Its contribution to an entry of the output. -/
def Sweep.term (dim P Q s0 s1 : Nat) (s : Vals α) (w : Sweep) (i : Nat) : α :=
  contrib dim P Q s0 s1 w.op w.uo w.vo s i

/-- Whether it writes an entry of the output. -/
abbrev Sweep.covers (dim Q : Nat) (w : Sweep) (i : Nat) : Prop := w.vo ≤ i ∧ i < w.vo + Q ^ dim

theorem contrib_congr {b dim P Q s0 s1 uo vo i : Nat} {op : Nat → Arr} {s s' : Vals α}
    (hop : ∀ d, op d = .shared b 0 ∨ op d = .shared b 3)
    (h : ∀ a, a ≠ .v → a ≠ .shared b 1 → a ≠ .shared b 2 → s' a = s a) :
    contrib dim P Q s0 s1 op uo vo s' i = contrib dim P Q s0 s1 op uo vo s i := by
  unfold contrib
  rw [h .u (by simp) (by simp) (by simp)]
  have : (fun d j c => s' (op d) (j * s0 + c * s1)) = fun d j c => s (op d) (j * s0 + c * s1) := by
    funext d j c
    rw [h (op d)] <;> rcases hop d with e | e <;> rw [e] <;> simp
  rw [this]

section Sweeps
variable {b dim P Q s0 s1 : Nat} {l : List Sweep}

theorem sweeps_keep {tr : Bool} (hdim : 0 < dim) (hop : ∀ w ∈ l, ∀ d, w.op d = .shared b 0 ∨ w.op d = .shared b 3)
    (s : Vals α) : ∀ a, a ≠ .v → a ≠ .shared b 1 → a ≠ .shared b 2 →
      effs (l.flatMap fun w => w.jobs b dim P Q s0 s1 tr) s a = s a := by
  induction l generalizing s with
  | nil => exact fun a _ _ _ => rfl
  | cons w l ih =>
    intro a h1 h2 h3
    rw [List.flatMap_cons, effs_append, ih (fun w hw => hop w (List.mem_cons_of_mem _ hw)) _ a h1 h2 h3]
    exact (sweep_eff hdim (hop w (List.mem_cons_self ..)) s).1 a h1 h2 h3

/-- Transposed sweeps add up. -/
theorem sweeps_add (hdim : 0 < dim) (hop : ∀ w ∈ l, ∀ d, w.op d = .shared b 0 ∨ w.op d = .shared b 3) (s : Vals α)
    (i : Nat) : effs (l.flatMap fun w => w.jobs b dim P Q s0 s1 true) s .v i =
      s .v i + (l.map fun w => if w.covers dim Q i then w.term dim P Q s0 s1 s i else 0).sum := by
  induction l generalizing s with
  | nil => simp [effs]
  | cons w l ih =>
    obtain ⟨h1, h2⟩ := sweep_eff (P := P) (Q := Q) (s0 := s0) (s1 := s1) (tr := true) (uo := w.uo) (vo := w.vo) hdim
      (hop w (List.mem_cons_self ..)) s
    rw [List.flatMap_cons, effs_append, ih (fun w hw => hop w (List.mem_cons_of_mem _ hw)), List.map_cons, List.sum_cons]
    have h3 : Sweep.jobs (α := α) b dim P Q s0 s1 true w = dirJobs b dim P Q s0 s1 true w.op (.u, w.uo) (.v, w.vo) := rfl
    rw [h3, h2 i, ← add_assoc]
    congr 1
    · by_cases hi : w.vo ≤ i ∧ i < w.vo + Q ^ dim
      · rw [if_pos hi, if_pos hi, if_pos rfl]
        rfl
      · rw [if_neg hi, if_neg hi, add_zero]
    · congr 1
      refine List.map_congr_left fun w' hw' => ?_
      congr 1
      exact contrib_congr (hop w' (List.mem_cons_of_mem _ hw')) h1

/-- Other sweeps overwrite. -/
theorem sweeps_set (hdim : 0 < dim) (hop : ∀ w ∈ l, ∀ d, w.op d = .shared b 0 ∨ w.op d = .shared b 3) (s : Vals α)
    {i : Nat} {x : α} (hx : ∀ w ∈ l, w.covers dim Q i → w.term dim P Q s0 s1 s i = x)
    (h : (∃ w ∈ l, w.covers dim Q i) ∨ s .v i = x) :
    effs (l.flatMap fun w => w.jobs b dim P Q s0 s1 false) s .v i = x := by
  induction l generalizing s with
  | nil => exact h.resolve_left (by simp)
  | cons w l ih =>
    obtain ⟨h1, h2⟩ := sweep_eff (P := P) (Q := Q) (s0 := s0) (s1 := s1) (tr := false) (uo := w.uo) (vo := w.vo) hdim
      (hop w (List.mem_cons_self ..)) s
    rw [List.flatMap_cons, effs_append]
    refine ih (fun w hw => hop w (List.mem_cons_of_mem _ hw)) _ (fun w' hw' hc => ?_) ?_
    · rw [← hx w' (List.mem_cons_of_mem _ hw') hc]
      exact contrib_congr (hop w' (List.mem_cons_of_mem _ hw')) h1
    · by_cases hc : w.covers dim Q i
      · right
        have h3 : Sweep.jobs (α := α) b dim P Q s0 s1 false w =
          dirJobs b dim P Q s0 s1 false w.op (.u, w.uo) (.v, w.vo) := rfl
        rw [h3, h2 i, if_pos hc, if_neg (by simp), zero_add]
        exact hx w (List.mem_cons_self ..) hc
      · rcases h with ⟨w', hw', hc'⟩ | h
        · rcases List.mem_cons.mp hw' with rfl | hw'
          · exact absurd hc' hc
          · exact .inl ⟨w', hw', hc'⟩
        · right
          have h3 : Sweep.jobs (α := α) b dim P Q s0 s1 false w =
            dirJobs b dim P Q s0 s1 false w.op (.u, w.uo) (.v, w.vo) := rfl
          rw [h3, h2 i, if_neg hc]
          exact h

end Sweeps

end Verif.Gpu
