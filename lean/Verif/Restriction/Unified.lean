import Verif.Restriction.Kernels

/-!
# One description of all offset/strided kernels (helper lemmas)

Every kernel computes, with an index map `li` and a (tri)diagonal coefficient matrix `tm`,
`v[b,k,n,j] = Σ_m tm b j n m * u[li b j m k]` and the transpose.
-/

set_option linter.unusedSectionVars false

namespace Verif.Restriction
open Finset

variable {α : Type} [CommRing α]

/-- L-vector index read for block `b`, lane `j`, node `m`, component `k`. -/
def li (r : Rstr) (nc bs : Nat) (cs : Int) (b j m k : Nat) : Int :=
  match r.rtype, r.strides with
  | .strided, some s =>
    (if s = (0, 0, 0) then backendIdx r.elemSize nc else userIdx s) m k (min ((b * bs + j : Nat) : Int) (r.numElem - 1))
  | _, _ => r.offsets.val (j + m * bs + b * bs * r.elemSize) + k * cs

/-- Tridiagonal coefficients stored for one lane. -/
def tri (r : Rstr) (bs : Nat) (conv : Int → α) (b j n m : Nat) : α :=
  if m + 1 = n then conv (r.curlOrients.val (j + (3 * n) * bs + b * bs * 3 * r.elemSize))
  else if m = n then conv (r.curlOrients.val (j + (3 * n + 1) * bs + b * bs * 3 * r.elemSize))
  else if m = n + 1 then conv (r.curlOrients.val (j + (3 * n + 2) * bs + b * bs * 3 * r.elemSize))
  else 0

/-- Coefficient of node `m` in row `n` of lane `j` of block `b`. -/
def tm (r : Rstr) (bs : Nat) (signs orients : Bool) (b j n m : Nat) : α :=
  match r.rtype with
  | .oriented =>
    if m = n then (if signs then (if r.orients.val (j + n * bs + b * bs * r.elemSize) then -1 else 1) else 1) else 0
  | .curlOriented =>
    if signs && orients then tri r bs (fun c => (c : α)) b j n m
    else if orients then tri r bs (fun c => ((c.natAbs : Int) : α)) b j n m
    else if m = n then 1 else 0
  | _ => if m = n then 1 else 0

/-- The stored arrays cover the first `stop` blocks. -/
structure Covers (r : Rstr) (bs stop : Nat) (orients : Bool) : Prop where
  notPoints : r.rtype ≠ .points
  strides : r.rtype = .strided → r.strides ≠ none
  offs : r.rtype ≠ .strided → stop * bs * r.elemSize ≤ r.offsets.len
  ors : r.rtype = .oriented → stop * bs * r.elemSize ≤ r.orients.len
  cur : r.rtype = .curlOriented → orients = true → stop * bs * (3 * r.elemSize) ≤ r.curlOrients.len
  two : r.rtype = .curlOriented → orients = true → 2 ≤ r.elemSize

theorem sum_diag {es n : Nat} (hn : n < es) (c f : Nat → α) :
    ∑ m ∈ range es, (if m = n then c m else 0) * f m = f n * c n := by
  simp [sum_ite_eq', hn, mul_comm]

theorem sum_tri {es n : Nat} (hn : n < es) (A B C : α) (f : Nat → α) :
    ∑ m ∈ range es, (if m + 1 = n then A else if m = n then B else if m = n + 1 then C else 0) * f m =
      (if n = 0 then 0 else f (n - 1) * A) + f n * B + (if n + 1 < es then f (n + 1) * C else 0) := by
  have h : ∀ m, (if m + 1 = n then A else if m = n then B else if m = n + 1 then C else 0) * f m =
      (if m + 1 = n then A * f m else 0) + (if m = n then B * f m else 0) + (if m = n + 1 then C * f m else 0) := by
    intro m
    by_cases h1 : m + 1 = n
    · have h2 : ¬ m = n := by omega
      have h3 : ¬ m = n + 1 := by omega
      simp [h1, h2, h3]
    · by_cases h2 : m = n
      · have h3 : ¬ m = n + 1 := by omega
        simp [h2]
      · by_cases h3 : m = n + 1
        · have h4 : ¬ n + 1 + 1 = n := by omega
          simp [h3, h4]
        · simp [h1, h2, h3]
  simp only [h, sum_add_distrib]
  congr 1
  · congr 1
    · rcases Nat.eq_zero_or_pos n with rfl | h0
      · simp
      · have : ∀ m, (m + 1 = n) ↔ (m = n - 1) := by intro m; omega
        simp only [this]
        rw [sum_ite_eq']
        simp [show n - 1 < es by omega, show n ≠ 0 by omega, mul_comm]
    · rw [sum_ite_eq']; simp [hn, mul_comm]
  · rw [sum_ite_eq']; simp [mul_comm]

theorem sum_triT {es n : Nat} (hn : n < es) (A B C : Nat → α) (f : Nat → α) :
    ∑ m ∈ range es, (if n + 1 = m then A m else if n = m then B m else if n = m + 1 then C m else 0) * f m =
      (if n = 0 then 0 else f (n - 1) * C (n - 1)) + f n * B n + (if n + 1 < es then f (n + 1) * A (n + 1) else 0) := by
  have h : ∀ m, (if n + 1 = m then A m else if n = m then B m else if n = m + 1 then C m else 0) * f m =
      (if m + 1 = n then C m * f m else 0) + (if m = n then B m * f m else 0) +
        (if m = n + 1 then A m * f m else 0) := by
    intro m
    by_cases h1 : m + 1 = n
    · have h2 : ¬ m = n := by omega
      have h3 : ¬ n + 1 = m := by omega
      have h4 : ¬ n = m := by omega
      have h5 : ¬ m = n + 1 := by omega
      subst h1
      simp [h3, h5]
    · by_cases h2 : m = n
      · subst h2; simp
      · by_cases h3 : m = n + 1
        · have h4 : n + 1 = m := by omega
          have h5 : ¬ n + 1 + 1 = n := by omega
          subst h3
          simp [h5]
        · have h4 : ¬ n + 1 = m := by omega
          have h5 : ¬ n = m := by omega
          have h6 : ¬ n = m + 1 := by omega
          simp [h1, h2, h3, h4, h5, h6]
  simp only [h, sum_add_distrib]
  congr 1
  · congr 1
    · rcases Nat.eq_zero_or_pos n with rfl | h0
      · simp
      · have : ∀ m, (m + 1 = n) ↔ (m = n - 1) := by intro m; omega
        simp only [this]
        rw [sum_ite_eq']
        simp [show n - 1 < es by omega, show n ≠ 0 by omega, mul_comm]
    · rw [sum_ite_eq']; simp [hn, mul_comm]
  · rw [sum_ite_eq']; simp [mul_comm]

theorem curlVal_eq {r : Rstr} {bs : Nat} {cs : Int} {conv : Int → α} {uu : Buf α} {b k n j : Nat}
    (hn : n < r.elemSize) (hr : r.rtype = .curlOriented) {nc : Nat} :
    curlVal bs r.elemSize cs r.offsets r.curlOrients conv uu (b * bs) k n j =
      ∑ m ∈ range r.elemSize, tri r bs conv b j n m * uu.val (li r nc bs cs b j m k).toNat := by
  simp only [tri, li, hr]
  rw [sum_tri hn]
  simp [curlVal]

theorem curlTVal_eq {r : Rstr} {nc bs : Nat} {conv : Int → α} {uu : Buf α} {start b k n j : Nat}
    (hn : n < r.elemSize) :
    curlTVal nc bs r.elemSize r.curlOrients conv uu start b k n j =
      ∑ m ∈ range r.elemSize, tri r bs conv (start + b) j m n * uu.val (eIdx nc r.elemSize bs b k m j) := by
  simp only [tri]
  rw [sum_triT hn]
  simp only [curlTVal]
  congr 1
  congr 1
  split
  · rfl
  · rw [show 3 * (n - 1) + 2 = 3 * n - 1 by omega]

theorem applyCore_gathers {r : Rstr} {nc bs : Nat} {cs : Int} {start stop : Nat} {signs orients : Bool} {uu : Buf α}
    {L : Nat} (hc : Covers r bs stop orients) (hso : signs = true → orients = true)
    (hL : (stop - start) * nc * r.elemSize * bs ≤ L)
    (hidx : ∀ b < stop - start, ∀ k < nc, ∀ n < r.elemSize, ∀ j < bs,
      0 ≤ li r nc bs cs (start + b) j n k ∧ li r nc bs cs (start + b) j n k < uu.len) :
    Gathers (applyCore r nc bs cs start stop .noTranspose signs orients uu) nc r.elemSize bs (stop - start) L
      (fun b k n j => ∑ m ∈ range r.elemSize,
        tm r bs signs orients (start + b) j n m * uu.val (li r nc bs cs (start + b) j m k).toNat) := by
  obtain ⟨h1, h2, h3, h4, h5, h6⟩ := hc
  unfold applyCore
  rcases hr : r.rtype with _ | _ | _ | _ | _
  · obtain ⟨s, hs⟩ := Option.ne_none_iff_exists'.1 (h2 hr)
    simp only [li, hr, hs] at hidx
    simp only [stridedIdx, hs, Res.bind_ok]
    refine (stridedNT_gathers hL hidx).congr ?_
    intro b hb k hk n hn j hj
    simp only [tm, hr, li, hs]
    rw [sum_diag hn (fun _ => 1)]; simp
  · simp only [li, hr] at hidx
    refine (offsetNT_gathers hL (h3 (by simp [hr])) hidx).congr ?_
    intro b hb k hk n hn j hj
    simp only [tm, hr, li]
    rw [sum_diag hn (fun _ => 1)]; simp
  · simp only [li, hr] at hidx
    simp only
    split
    · refine (orientedNT_gathers hL (h3 (by simp [hr])) (h4 hr) hidx).congr ?_
      intro b hb k hk n hn j hj
      simp only [tm, hr, li]
      simp_all
    · refine (offsetNT_gathers hL (h3 (by simp [hr])) hidx).congr ?_
      intro b hb k hk n hn j hj
      simp only [tm, hr, li]
      simp_all
  · have hidx' := hidx
    simp only [li, hr] at hidx
    simp only
    split
    · rename_i hso'
      have ho : orients = true := by simp_all
      refine (curlNT_gathers (h6 hr ho) hL (h3 (by simp [hr])) (h5 hr ho) hidx).congr ?_
      intro b hb k hk n hn j hj
      rw [curlVal_eq hn hr (nc := nc)]
      simp only [tm, hr, hso', if_true]
    · rename_i hso'
      split
      · rename_i ho
        refine (curlNT_gathers (h6 hr ho) hL (h3 (by simp [hr])) (h5 hr ho) hidx).congr ?_
        intro b hb k hk n hn j hj
        rw [curlVal_eq hn hr (nc := nc)]
        have hs : signs = false := by simp_all
        simp [tm, hr, hs, ho]
      · rename_i ho
        refine (offsetNT_gathers hL (h3 (by simp [hr])) hidx).congr ?_
        intro b hb k hk n hn j hj
        have h := sum_diag hn (fun _ => (1 : α))
          (fun m => uu.val (r.offsets.val (j + m * bs + (start + b) * bs * r.elemSize) + k * cs).toNat)
        simp only [tm, hr, li, ho]
        simpa using h.symm
  · exact absurd hr h1

theorem lane_min {bs : Nat} {ne : Int} {e j : Nat} (hj : j < laneEnd bs ne e) :
    min ((e + j : Nat) : Int) (ne - 1) = ((e + j : Nat) : Int) := by
  unfold laneEnd at hj; omega

theorem applyCore_adds {r : Rstr} {nc bs : Nat} {cs : Int} {start stop : Nat} {signs orients : Bool} {uu : Buf α}
    {L : Nat} (hc : Covers r bs stop orients) (hso : signs = true → orients = true)
    (hu : (stop - start) * nc * r.elemSize * bs ≤ uu.len)
    (hidx : ∀ b < stop - start, ∀ k < nc, ∀ n < r.elemSize, ∀ j < laneEnd bs r.numElem ((start + b) * bs),
      0 ≤ li r nc bs cs (start + b) j n k ∧ li r nc bs cs (start + b) j n k < L) :
    Adds (applyCore r nc bs cs start stop .transpose signs orients uu) L
      (fun t => ∑ b ∈ range (stop - start), ∑ k ∈ range nc, ∑ n ∈ range r.elemSize,
        ∑ j ∈ range (laneEnd bs r.numElem ((start + b) * bs)),
          if (t : Int) = li r nc bs cs (start + b) j n k then
            ∑ m ∈ range r.elemSize,
              tm r bs signs orients (start + b) j m n * uu.val (eIdx nc r.elemSize bs b k m j) else 0) := by
  obtain ⟨h1, h2, h3, h4, h5, h6⟩ := hc
  unfold applyCore
  have sd : ∀ {n : Nat}, n < r.elemSize → ∀ (c f : Nat → α),
      ∑ m ∈ range r.elemSize, (if n = m then c m else 0) * f m = f n * c n := by
    intro n hn c f
    rw [← sum_diag hn c f]
    exact sum_congr rfl fun m _ => by simp only [eq_comm]
  rcases hr : r.rtype with _ | _ | _ | _ | _
  · obtain ⟨s, hs⟩ := Option.ne_none_iff_exists'.1 (h2 hr)
    have hidx' : ∀ b < stop - start, ∀ k < nc, ∀ n < r.elemSize, ∀ j < laneEnd bs r.numElem ((start + b) * bs),
        0 ≤ (if s = (0, 0, 0) then backendIdx r.elemSize nc else userIdx s) n k (((start + b) * bs + j : Nat) : Int) ∧
        (if s = (0, 0, 0) then backendIdx r.elemSize nc else userIdx s) n k (((start + b) * bs + j : Nat) : Int) < L := by
      intro b hb k hk n hn j hj
      have := hidx b hb k hk n hn j hj
      simp only [li, hr, hs] at this
      rwa [lane_min hj] at this
    simp only [stridedIdx, hs, Res.bind_ok]
    refine (stridedT_adds hu hidx').congr ?_
    intro t
    refine sum_congr rfl fun b hb => sum_congr rfl fun k hk => sum_congr rfl fun n hn => sum_congr rfl fun j hj => ?_
    rw [mem_range] at *
    simp only [tm, hr, li, hs]
    rw [lane_min hj, sd hn (fun _ => 1)]; simp
  · simp only [li, hr] at hidx
    refine (offsetT_adds hu (h3 (by simp [hr])) hidx).congr ?_
    intro t
    refine sum_congr rfl fun b hb => sum_congr rfl fun k hk => sum_congr rfl fun n hn => sum_congr rfl fun j hj => ?_
    rw [mem_range] at *
    simp only [tm, hr, li]
    rw [sd hn (fun _ => 1)]; simp
  · simp only [li, hr] at hidx
    simp only
    split
    · refine (orientedT_adds hu (h3 (by simp [hr])) (h4 hr) hidx).congr ?_
      intro t
      refine sum_congr rfl fun b hb => sum_congr rfl fun k hk => sum_congr rfl fun n hn => sum_congr rfl fun j hj => ?_
      rw [mem_range] at *
      simp only [tm, hr, li]
      simp_all
    · refine (offsetT_adds hu (h3 (by simp [hr])) hidx).congr ?_
      intro t
      refine sum_congr rfl fun b hb => sum_congr rfl fun k hk => sum_congr rfl fun n hn => sum_congr rfl fun j hj => ?_
      rw [mem_range] at *
      simp only [tm, hr, li]
      simp_all
  · simp only [li, hr] at hidx
    simp only
    split
    · rename_i hso'
      have ho : orients = true := by simp_all
      refine (curlT_adds (h6 hr ho) hu (h3 (by simp [hr])) (h5 hr ho) hidx).congr ?_
      intro t
      refine sum_congr rfl fun b hb => sum_congr rfl fun k hk => sum_congr rfl fun n hn => sum_congr rfl fun j hj => ?_
      rw [mem_range] at *
      rw [curlTVal_eq hn]
      simp only [tm, hr, hso', if_true, li]
    · rename_i hso'
      split
      · rename_i ho
        refine (curlT_adds (h6 hr ho) hu (h3 (by simp [hr])) (h5 hr ho) hidx).congr ?_
        intro t
        refine sum_congr rfl fun b hb => sum_congr rfl fun k hk => sum_congr rfl fun n hn => sum_congr rfl fun j hj => ?_
        rw [mem_range] at *
        rw [curlTVal_eq hn]
        have hs : signs = false := by simp_all
        simp [tm, hr, hs, ho, li]
      · rename_i ho
        refine (offsetT_adds hu (h3 (by simp [hr])) hidx).congr ?_
        intro t
        refine sum_congr rfl fun b hb => sum_congr rfl fun k hk => sum_congr rfl fun n hn => sum_congr rfl fun j hj => ?_
        rw [mem_range] at *
        simp only [tm, hr, li, ho]
        simp_all
  · exact absurd hr h1

/-- The specialised kernels are the generic one (arguments as stored in the restriction). -/
theorem implApply_eq (r : Rstr) (start stop : Nat) (t : TMode) (signs orients : Bool) (uu vv : Buf α) :
    implApply r r.numComp r.blockSize r.compStride start stop t signs orients uu vv =
      applyCore r r.numComp r.blockSize r.compStride start stop t signs orients uu vv := by
  unfold implApply
  have key : ∀ {p : Prop} [Decidable p] {A B T : Res (Buf α)}, (p → A = T) → B = T → (if p then A else B) = T := by
    intro p _ A B T h1 h2
    split
    · exact h1 ‹_›
    · exact h2
  have hidx : ∀ N : Nat, 0 < N → (if r.blockSize < 10 then
      100 * (r.numComp : Int) + 10 * r.blockSize + (if r.compStride = 1 then 1 else 0) else -1) = (N : Int) →
      r.numComp = N / 100 ∧ r.blockSize = N / 10 % 10 ∧ (N % 10 = 1 → r.compStride = 1) := by
    intro N hN h
    split at h
    · split at h
      · exact ⟨by omega, by omega, fun _ => by assumption⟩
      · exact ⟨by omega, by omega, fun _ => by omega⟩
    · omega
  simp only
  refine key (fun h => ?_) (key (fun h => ?_) (key (fun h => ?_) (key (fun h => ?_) (key (fun h => ?_)
    (key (fun h => ?_) (key (fun h => ?_) (key (fun h => ?_) (key (fun h => ?_) (key (fun h => ?_)
    (key (fun h => ?_) (key (fun h => ?_) rfl)))))))))))
  · obtain ⟨a, b, c⟩ := hidx 110 (by omega) h; rw [a, b]
  · obtain ⟨a, b, c⟩ := hidx 111 (by omega) h; rw [a, b, c rfl]
  · obtain ⟨a, b, c⟩ := hidx 180 (by omega) h; rw [a, b]
  · obtain ⟨a, b, c⟩ := hidx 181 (by omega) h; rw [a, b, c rfl]
  · obtain ⟨a, b, c⟩ := hidx 310 (by omega) h; rw [a, b]
  · obtain ⟨a, b, c⟩ := hidx 311 (by omega) h; rw [a, b, c rfl]
  · obtain ⟨a, b, c⟩ := hidx 380 (by omega) h; rw [a, b]
  · obtain ⟨a, b, c⟩ := hidx 381 (by omega) h; rw [a, b, c rfl]
  · obtain ⟨a, b, c⟩ := hidx 510 (by omega) h; rw [a, b]
  · obtain ⟨a, b, c⟩ := hidx 511 (by omega) h; rw [a, b, c rfl]
  · obtain ⟨a, b, c⟩ := hidx 580 (by omega) h; rw [a, b]
  · obtain ⟨a, b, c⟩ := hidx 581 (by omega) h; rw [a, b, c rfl]

end Verif.Restriction
