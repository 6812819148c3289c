import Verif.Gpu.BasisTensor

/-!
# The tensor kernels on every schedule (helper lemmas)
-/

namespace Verif.Gpu
open Verif.Basis (kron)
open Finset (range)

variable {α : Type} [CommRing α]

theorem covers_iff {N i x : Nat} (hN : 0 < N) : (x * N ≤ i ∧ i < x * N + N) ↔ i / N = x := by
  rw [Nat.div_eq_iff hN]
  constructor
  · rintro ⟨h1, h2⟩
    exact ⟨h1, by omega⟩
  · rintro ⟨h1, h2⟩
    exact ⟨h1, by omega⟩

theorem sum_list_pick {β : Type} [DecidableEq β] {l : List β} (hl : l.Nodup) {x : β} (hx : x ∈ l) {f : β → α}
    (hf : ∀ y ∈ l, y ≠ x → f y = 0) : (l.map f).sum = f x := by
  induction l with
  | nil => simp at hx
  | cons y l ih =>
    obtain ⟨hn, hd⟩ := List.nodup_cons.mp hl
    rw [List.map_cons, List.sum_cons]
    rcases List.mem_cons.mp hx with rfl | hx'
    · rw [List.sum_eq_zero, add_zero]
      intro z hz
      obtain ⟨w, hw, rfl⟩ := List.mem_map.mp hz
      exact hf w (List.mem_cons_of_mem _ hw) fun e => hn (e ▸ hw)
    · rw [hf y (List.mem_cons_self ..) fun e => hn (e ▸ hx'), zero_add]
      exact ih hd hx' fun z hz => hf z (List.mem_cons_of_mem _ hz)

theorem sum_flatMap {β γ : Type} (l : List β) (f : β → List γ) (g : γ → α) :
    ((l.flatMap f).map g).sum = (l.map fun x => ((f x).map g).sum).sum := by
  induction l with
  | nil => rfl
  | cons x l ih => rw [List.flatMap_cons, List.map_append, List.sum_append, ih, List.map_cons, List.sum_cons]

/-- Sizes of a launch of a tensor kernel. `uX`, `vX` are the strides of the derivative directions, in elements. -/
structure TK where
  (G B ne nc nd dim P Q s0 s1 uX vX : Nat)
  tr : Bool
  op : Nat → Nat → Nat → Arr

/-- The sweep for an element, a component and a derivative direction. -/
def TK.sweep (k : TK) (b e c c1 : Nat) : Sweep :=
  ⟨k.op b c1, (e + c1 * k.uX + c * k.ne) * k.P ^ k.dim, (e + c1 * k.vX + c * k.ne) * k.Q ^ k.dim⟩

/-- The sweeps of a block. -/
def TK.sweeps (k : TK) (b : Nat) : List Sweep :=
  (strideList k.ne k.G k.ne b).flatMap fun e => (List.range k.nc).flatMap fun c => (List.range k.nd).map fun c1 =>
    k.sweep b e c c1

/-- The jobs of a block, after `load`. -/
def TK.jobs (k : TK) (load : Job α) (b : Nat) : List (Job α) :=
  load :: (k.sweeps b).flatMap fun w => w.jobs b k.dim k.P k.Q k.s0 k.s1 k.tr

/-- Conditions on a launch. -/
structure TK.Ok (k : TK) (m : Mem α) (ld : Nat → Job α) (T : Nat → Nat → Nat → Nat → α) : Prop where
  G : 0 < k.G
  B : 0 < k.B
  dim : 0 < k.dim
  P : 0 < k.P
  Q : 0 < k.Q
  op : ∀ b c1 d, k.op b c1 d = .shared b 0 ∨ k.op b c1 d = .shared b 3
  opLen : ∀ b c1 d, c1 < k.nd → ∀ j < k.Q, ∀ c < k.P, j * k.s0 + c * k.s1 < m.len (k.op b c1 d)
  uLen : ∀ e < k.ne, ∀ c < k.nc, ∀ c1 < k.nd, (e + c1 * k.uX + c * k.ne) * k.P ^ k.dim + k.P ^ k.dim ≤ m.len .u
  vLen : ∀ e < k.ne, ∀ c < k.nc, ∀ c1 < k.nd, (e + c1 * k.vX + c * k.ne) * k.Q ^ k.dim + k.Q ^ k.dim ≤ m.len .v
  buf1 : ∀ b d, 0 < d → d < k.dim → k.P ^ (k.dim - d) * k.Q ^ d ≤ m.len (.shared b 1)
  buf2 : ∀ b d, 0 < d → d < k.dim → k.P ^ (k.dim - d) * k.Q ^ d ≤ m.len (.shared b 2)
  loadOk : ∀ b, (ld b).Ok m.len
  loadOut : ∀ b x a i, (ld b).outs x a i → a = .shared b 0 ∨ a = .shared b 3
  loadRo : ∀ b a i, (ld b).ro a i → ∃ j, a = .table j
  loadEff : ∀ b c1 d, c1 < k.nd → ∀ j < k.Q, ∀ c < k.P,
    (ld b).eff m.val (k.op b c1 d) (j * k.s0 + c * k.s1) = T c1 d j c

section
variable {k : TK} {m : Mem α} {load : Nat → Job α} {T : Nat → Nat → Nat → Nat → α}

theorem mem_sweeps (hk : k.Ok m load T) {b : Nat} (hb : b < k.G) {w : Sweep} : w ∈ k.sweeps b ↔
    ∃ e < k.ne, e % k.G = b ∧ ∃ c < k.nc, ∃ c1 < k.nd, w = k.sweep b e c c1 := by
  unfold TK.sweeps
  simp only [List.mem_flatMap, List.mem_map, List.mem_range, mem_cells hb]
  constructor
  · rintro ⟨e, ⟨he, hm⟩, c, hc, c1, hc1, rfl⟩
    exact ⟨e, he, hm, c, hc, c1, hc1, rfl⟩
  · rintro ⟨e, he, hm, c, hc, c1, hc1, rfl⟩
    exact ⟨e, ⟨he, hm⟩, c, hc, c1, hc1, rfl⟩

theorem inPtr_cases (b d uo : Nat) : (d = 0 ∧ inPtr b d (.u, uo) = (.u, uo)) ∨
    (0 < d ∧ d % 2 = 1 ∧ inPtr b d (.u, uo) = (.shared b 2, 0)) ∨
    (0 < d ∧ d % 2 = 0 ∧ inPtr b d (.u, uo) = (.shared b 1, 0)) := by
  unfold inPtr
  by_cases h0 : d = 0
  · exact .inl ⟨h0, by rw [if_pos h0]⟩
  · rw [if_neg h0]
    by_cases h : d % 2 = 0
    · exact .inr (.inr ⟨by omega, h, by simp [h]⟩)
    · exact .inr (.inl ⟨by omega, by omega, by simp [h]⟩)

theorem outPtr_cases (b dim d vo : Nat) : (d = dim - 1 ∧ outPtr b dim d (.v, vo) = (.v, vo)) ∨
    (d ≠ dim - 1 ∧ d % 2 = 1 ∧ outPtr b dim d (.v, vo) = (.shared b 1, 0)) ∨
    (d ≠ dim - 1 ∧ d % 2 = 0 ∧ outPtr b dim d (.v, vo) = (.shared b 2, 0)) := by
  unfold outPtr
  by_cases h0 : d = dim - 1
  · exact .inl ⟨h0, by rw [if_pos h0]⟩
  · rw [if_neg h0]
    by_cases h : d % 2 = 0
    · exact .inr (.inr ⟨h0, h, by simp [h]⟩)
    · exact .inr (.inl ⟨h0, by omega, by simp [h]⟩)

theorem sweep_job (hk : k.Ok m load T) {b : Nat} {e c c1 : Nat} (he : e < k.ne) (hc : c < k.nc) (hc1 : c1 < k.nd)
    {j : Job α} (hj : j ∈ (k.sweep b e c c1).jobs b k.dim k.P k.Q k.s0 k.s1 k.tr) : j.Ok m.len ∧
      (∀ i a x, i < j.n → j.outs i a x → a = .shared b 1 ∨ a = .shared b 2 ∨
        (a = .v ∧ x / k.Q ^ k.dim = e + c1 * k.vX + c * k.ne)) ∧
      (∀ a x, j.ro a x → a = .u ∨ ∃ y, a = .shared b y) := by
  obtain ⟨d, hd, rfl⟩ := List.mem_map.mp hj
  have hd' : d < k.dim := List.mem_range.mp hd
  have hQd : 0 < k.Q ^ k.dim := Nat.pow_pos hk.Q
  have eo : k.P ^ (k.dim - 1 - d) * k.Q ^ d * k.Q = k.P ^ (k.dim - (d + 1)) * k.Q ^ (d + 1) := by
    rw [show k.dim - 1 - d = k.dim - (d + 1) by omega]; ring
  have ei : k.P ^ (k.dim - 1 - d) * k.P * k.Q ^ d = k.P ^ (k.dim - d) * k.Q ^ d := by
    rw [show k.dim - d = (k.dim - 1 - d) + 1 by omega, pow_succ]
  have hop := hk.op b c1 d
  refine ⟨?_, ?_, ?_⟩
  · refine contrJob_ok (fun j hj c hc => hk.opLen b c1 d hc1 j hj c hc) ?_ ?_ ?_ ?_
    · rw [ei]
      rcases inPtr_cases b d (k.sweep b e c c1).uo with ⟨h0, h⟩ | ⟨h0, h1, h⟩ | ⟨h0, h1, h⟩ <;> rw [h]
      · subst h0
        rw [Nat.sub_zero, pow_zero, Nat.mul_one]
        exact hk.uLen e he c hc c1 hc1
      · simpa using hk.buf2 b d h0 hd'
      · simpa using hk.buf1 b d h0 hd'
    · rw [eo]
      rcases outPtr_cases b k.dim d (k.sweep b e c c1).vo with ⟨h0, h⟩ | ⟨h0, h1, h⟩ | ⟨h0, h1, h⟩ <;> rw [h]
      · have e0 : k.dim - (d + 1) = 0 := by omega
        rw [e0, pow_zero, one_mul, show d + 1 = k.dim by omega]
        exact hk.vLen e he c hc c1 hc1
      · simpa using hk.buf1 b (d + 1) (by omega) (by omega)
      · simpa using hk.buf2 b (d + 1) (by omega) (by omega)
    · show _ ≠ k.op b c1 d
      rcases outPtr_cases b k.dim d (k.sweep b e c c1).vo with ⟨h0, h⟩ | ⟨h0, h1, h⟩ | ⟨h0, h1, h⟩ <;> rw [h] <;>
        rcases hop with h' | h' <;> rw [h'] <;> simp
    · rcases outPtr_cases b k.dim d (k.sweep b e c c1).vo with ⟨h0, h⟩ | ⟨h0, h1, h⟩ | ⟨h0, h1, h⟩ <;> rw [h] <;>
        rcases inPtr_cases b d (k.sweep b e c c1).uo with ⟨g0, g⟩ | ⟨g0, g1, g⟩ | ⟨g0, g1, g⟩ <;> rw [g] <;>
          first | omega | simp
  · rintro i a x hi ⟨rfl, rfl⟩
    have hi' : i < k.P ^ (k.dim - 1 - d) * k.Q ^ d * k.Q := hi
    rw [eo] at hi'
    rcases outPtr_cases b k.dim d (k.sweep b e c c1).vo with ⟨h0, h⟩ | ⟨h0, h1, h⟩ | ⟨h0, h1, h⟩ <;> rw [h]
    · refine .inr (.inr ⟨rfl, ?_⟩)
      have e0 : k.dim - (d + 1) = 0 := by omega
      rw [e0, pow_zero, one_mul, show d + 1 = k.dim by omega] at hi'
      rw [← covers_iff hQd]
      show _ * _ ≤ _ * _ + i ∧ _ * _ + i < _ * _ + _
      omega
    · exact .inl rfl
    · exact .inr (.inl rfl)
  · rintro a x (rfl | rfl)
    · rcases hop with h' | h'
      · exact .inr ⟨0, h'⟩
      · exact .inr ⟨3, h'⟩
    · rcases inPtr_cases b d (k.sweep b e c c1).uo with ⟨g0, g⟩ | ⟨g0, g1, g⟩ | ⟨g0, g1, g⟩ <;> rw [g]
      · exact .inl rfl
      · exact .inr ⟨_, rfl⟩
      · exact .inr ⟨_, rfl⟩

/-- Entries a block may change. -/
def TK.reg (k : TK) (b : Nat) (a : Arr) (i : Nat) : Prop :=
  match a with
  | .shared b' _ => b' = b
  | .v => i / k.Q ^ k.dim % k.ne % k.G = b
  | _ => False

/-- A kernel that is the sequence of these jobs leaves the output as these jobs do. -/
theorem runs_tk (hk : k.Ok m load T) (hvX : ∃ z, k.vX = z * k.ne) {kern : Nat → Nat → K α Unit}
    (hkern : ∀ b < k.G, ∀ t < k.B, kern b t = runAll ((k.jobs (load b) b).map fun j => j.seg k.B t))
    {Q : Vals α → Prop}
    (hQ : ∀ s : Vals α, (∀ i, s .v i = effs (k.jobs (load (i / k.Q ^ k.dim % k.ne % k.G)) (i / k.Q ^ k.dim % k.ne % k.G))
      m.val .v i) → s .u = m.val .u → Q s) : Runs k.G k.B (launch kern m) Q := by
  have hjob : ∀ b < k.G, ∀ j ∈ k.jobs (load b) b, j.Ok m.len ∧
      (∀ i a x, i < j.n → j.outs i a x → k.reg b a x) ∧
      (∀ a x, j.ro a x → ∀ b' < k.G, k.reg b' a x → b' = b) := by
    intro b hb j hj
    rcases List.mem_cons.mp hj with rfl | hj
    · refine ⟨hk.loadOk b, fun i a x _ h => ?_, fun a x h b' _ hr => ?_⟩
      · rcases hk.loadOut b i a x h with rfl | rfl <;> exact rfl
      · obtain ⟨j, rfl⟩ := hk.loadRo b a x h
        exact hr.elim
    · obtain ⟨w, hw, hj⟩ := List.mem_flatMap.mp hj
      obtain ⟨e, he, hm, c, hc, c1, hc1, rfl⟩ := (mem_sweeps hk hb).mp hw
      obtain ⟨h1, h2, h3⟩ := sweep_job hk he hc hc1 hj
      refine ⟨h1, fun i a x hi h => ?_, fun a x h b' _ hr => ?_⟩
      · rcases h2 i a x hi h with rfl | rfl | ⟨rfl, hx⟩
        · rfl
        · rfl
        · show _ / _ % _ % _ = b
          obtain ⟨z, hz⟩ := hvX
          rw [hx, hz, show e + c1 * (z * k.ne) + c * k.ne = e + k.ne * (c1 * z + c) by ring, Nat.add_mul_mod_self_left,
            Nat.mod_eq_of_lt he, hm]
      · rcases h3 a x h with rfl | ⟨y, rfl⟩
        · exact hr.elim
        · exact hr.symm
  refine runs_jobs hk.B (fun b => k.jobs (load b) b) k.reg (fun b _ => by simp [TK.jobs]) hkern
    (fun b hb j hj => (hjob b hb j hj).1) (fun b hb j hj i hi a x h => (hjob b hb j hj).2.1 i a x hi h)
    (fun b hb j hj => (hjob b hb j hj).2.2) (fun b _ b' _ a i h h' => ?_) fun s h1 h2 => hQ s (fun i => ?_)
      (funext fun i => h2 .u i fun b _ h => h)
  · cases a with
    | shared b'' j => exact h'.symm.trans h
    | v => exact h'.symm.trans h
    | u => exact h.elim
    | table j => exact h.elim
  · exact h1 _ (Nat.mod_lt _ hk.G) .v i rfl

/-- The contribution of a sweep, in terms of the tables and the input. -/
theorem sweep_term (hk : k.Ok m load T) {b e c c1 : Nat} (hc1 : c1 < k.nd) (i : Nat) :
    (k.sweep b e c c1).term k.dim k.P k.Q k.s0 k.s1 ((load b).eff m.val) i =
      ∑ l ∈ range (k.P ^ k.dim), kron (T c1) k.Q k.P k.dim (i - (e + c1 * k.vX + c * k.ne) * k.Q ^ k.dim) l *
        m.val .u ((e + c1 * k.uX + c * k.ne) * k.P ^ k.dim + l) := by
  unfold Sweep.term contrib
  refine Finset.sum_congr rfl fun l _ => ?_
  have hu : (load b).eff m.val .u = m.val .u := by
    funext x
    refine (hk.loadOk b).keep _ _ _ fun k' _ h => ?_
    rcases hk.loadOut b k' _ _ h with h | h <;> exact absurd h (by simp)
  rw [hu]
  congr 1
  unfold kron
  refine Finset.prod_congr rfl fun d _ => ?_
  exact hk.loadEff b c1 d hc1 _ (Nat.mod_lt _ hk.Q) _ (Nat.mod_lt _ hk.P)

omit [CommRing α] in
theorem load_keep_v (hk : k.Ok m load T) (b i : Nat) : (load b).eff m.val .v i = m.val .v i := by
  refine (hk.loadOk b).keep _ _ _ fun k' _ h => ?_
  rcases hk.loadOut b k' _ _ h with h | h <;> exact absurd h (by simp)

theorem sweeps_op (hk : k.Ok m load T) {b : Nat} (hb : b < k.G) : ∀ w ∈ k.sweeps b, ∀ d,
    w.op d = .shared b 0 ∨ w.op d = .shared b 3 := by
  intro w hw d
  obtain ⟨e, -, -, c, -, c1, -, rfl⟩ := (mem_sweeps hk hb).mp hw
  exact hk.op b c1 d

theorem dec3 {ne nc e c c1 e' c' c1' : Nat} (he : e < ne) (hc : c < nc) (he' : e' < ne) (hc' : c' < nc)
    (h : e + c1 * (nc * ne) + c * ne = e' + c1' * (nc * ne) + c' * ne) : e = e' ∧ c = c' ∧ c1 = c1' := by
  have key : ∀ e c c1, e + c1 * (nc * ne) + c * ne = (c1 * nc + c) * ne + e := fun e c c1 => by ring
  rw [key, key] at h
  have h1 := congrArg (· % ne) h
  have h2 := congrArg (· / ne) h
  simp only [mod_enc he, mod_enc he', div_enc he, div_enc he'] at h1 h2
  have h3 := congrArg (· % nc) h2
  have h4 := congrArg (· / nc) h2
  simp only [mod_enc hc, mod_enc hc', div_enc hc, div_enc hc'] at h3 h4
  exact ⟨h1, h3, h4⟩

theorem dec2 {ne e c e' c' : Nat} (he : e < ne) (he' : e' < ne) (h : e + c * ne = e' + c' * ne) : e = e' ∧ c = c' := by
  rw [Nat.add_comm e, Nat.add_comm e'] at h
  have h1 := congrArg (· % ne) h
  have h2 := congrArg (· / ne) h
  simp only [mod_enc he, mod_enc he', div_enc he, div_enc he'] at h1 h2
  exact ⟨h1, h2⟩

/-- Values at the quadrature points. -/
theorem runs_set (hk : k.Ok m load T) (htr : k.tr = false) (hvX : k.vX = k.nc * k.ne)
    {kern : Nat → Nat → K α Unit}
    (hkern : ∀ b < k.G, ∀ t < k.B, kern b t = runAll ((k.jobs (load b) b).map fun j => j.seg k.B t)) :
    Runs k.G k.B (launch kern m) fun s =>
      (∀ e < k.ne, ∀ c < k.nc, ∀ c1 < k.nd, ∀ q < k.Q ^ k.dim,
        s .v ((e + c1 * k.vX + c * k.ne) * k.Q ^ k.dim + q) =
          ∑ l ∈ range (k.P ^ k.dim), kron (T c1) k.Q k.P k.dim q l *
            m.val .u ((e + c1 * k.uX + c * k.ne) * k.P ^ k.dim + l)) ∧
      (∀ i, k.nd * (k.nc * k.ne) * k.Q ^ k.dim ≤ i → s .v i = m.val .v i) ∧ s .u = m.val .u := by
  have hQd : 0 < k.Q ^ k.dim := Nat.pow_pos hk.Q
  refine runs_tk hk ⟨k.nc, hvX⟩ hkern fun s hs hsu => ⟨fun e he c hc c1 hc1 q hq => ?_, fun i hi => ?_, hsu⟩
  · have hdiv : ((e + c1 * k.vX + c * k.ne) * k.Q ^ k.dim + q) / k.Q ^ k.dim = e + c1 * k.vX + c * k.ne := div_enc hq
    have hmod : ((e + c1 * k.vX + c * k.ne) * k.Q ^ k.dim + q) / k.Q ^ k.dim % k.ne = e := by
      rw [hdiv, hvX, show e + c1 * (k.nc * k.ne) + c * k.ne = e + k.ne * (c1 * k.nc + c) by ring,
        Nat.add_mul_mod_self_left, Nat.mod_eq_of_lt he]
    rw [hs, hmod]
    have hb := Nat.mod_lt e hk.G
    unfold TK.jobs
    rw [effs_cons, htr]
    refine sweeps_set hk.dim (sweeps_op hk hb) _ (fun w hw hcov => ?_) (.inl ?_)
    · obtain ⟨e', he', hm', c', hc', c1', hc1', rfl⟩ := (mem_sweeps hk hb).mp hw
      have h := (covers_iff hQd).mp hcov
      rw [hdiv, hvX] at h
      obtain ⟨rfl, rfl, rfl⟩ := dec3 he hc he' hc' h
      rw [sweep_term hk hc1, Nat.add_sub_cancel_left]
    · refine ⟨k.sweep (e % k.G) e c c1, (mem_sweeps hk hb).mpr ⟨e, he, rfl, c, hc, c1, hc1, rfl⟩, ?_⟩
      exact (covers_iff hQd).mpr hdiv
  · rw [hs]
    have hb := Nat.mod_lt (i / k.Q ^ k.dim % k.ne) hk.G
    unfold TK.jobs
    rw [effs_cons, htr]
    refine sweeps_set hk.dim (sweeps_op hk hb) _ (fun w hw hcov => ?_) (.inr (load_keep_v hk _ i))
    exfalso
    obtain ⟨e', he', hm', c', hc', c1', hc1', rfl⟩ := (mem_sweeps hk hb).mp hw
    have h := (covers_iff hQd).mp hcov
    rw [← Nat.le_div_iff_mul_le hQd, h, hvX] at hi
    have := enc_lt (enc_lt hc1' hc') he'
    rw [show (c1' * k.nc + c') * k.ne + e' = e' + c1' * (k.nc * k.ne) + c' * k.ne by ring, Nat.mul_assoc] at this
    omega

/-- Sums over the quadrature points. -/
theorem runs_add (hk : k.Ok m load T) (htr : k.tr = true) (hvX : k.vX = 0)
    {kern : Nat → Nat → K α Unit}
    (hkern : ∀ b < k.G, ∀ t < k.B, kern b t = runAll ((k.jobs (load b) b).map fun j => j.seg k.B t)) :
    Runs k.G k.B (launch kern m) fun s =>
      (∀ e < k.ne, ∀ c < k.nc, ∀ q < k.Q ^ k.dim,
        s .v ((e + c * k.ne) * k.Q ^ k.dim + q) = m.val .v ((e + c * k.ne) * k.Q ^ k.dim + q) +
          ∑ c1 ∈ range k.nd, ∑ l ∈ range (k.P ^ k.dim), kron (T c1) k.Q k.P k.dim q l *
            m.val .u ((e + c1 * k.uX + c * k.ne) * k.P ^ k.dim + l)) ∧
      (∀ i, k.nc * k.ne * k.Q ^ k.dim ≤ i → s .v i = m.val .v i) ∧ s .u = m.val .u := by
  have hQd : 0 < k.Q ^ k.dim := Nat.pow_pos hk.Q
  refine runs_tk hk ⟨0, by rw [hvX]; omega⟩ hkern fun s hs hsu => ⟨fun e he c hc q hq => ?_, fun i hi => ?_, hsu⟩
  · have hdiv : ((e + c * k.ne) * k.Q ^ k.dim + q) / k.Q ^ k.dim = e + c * k.ne := div_enc hq
    have hmod : ((e + c * k.ne) * k.Q ^ k.dim + q) / k.Q ^ k.dim % k.ne = e := by
      rw [hdiv, Nat.add_mul_mod_self_right, Nat.mod_eq_of_lt he]
    rw [hs, hmod]
    have hb := Nat.mod_lt e hk.G
    unfold TK.jobs
    rw [effs_cons, htr, sweeps_add hk.dim (sweeps_op hk hb), load_keep_v hk]
    congr 1
    have hz : ∀ e' c' c1', e' < k.ne → ¬ (e' = e ∧ c' = c) →
        ¬ (k.sweep (e % k.G) e' c' c1').covers k.dim k.Q ((e + c * k.ne) * k.Q ^ k.dim + q) := by
      intro e' c' c1' he' h hcov
      have hh := (covers_iff hQd).mp hcov
      rw [hdiv, hvX, Nat.mul_zero, Nat.add_zero] at hh
      obtain ⟨h1, h2⟩ := dec2 he he' hh
      exact h ⟨h1.symm, h2.symm⟩
    unfold TK.sweeps
    rw [sum_flatMap, sum_list_pick (nodup_strideList hk.G _ _) ((mem_cells hb).mpr ⟨he, rfl⟩), sum_flatMap,
      sum_map_range, Finset.sum_eq_single c, List.map_map, sum_map_range]
    · refine Finset.sum_congr rfl fun c1 hc1 => ?_
      have hc1 := Finset.mem_range.mp hc1
      simp only [Function.comp]
      have hcov : (k.sweep (e % k.G) e c c1).covers k.dim k.Q ((e + c * k.ne) * k.Q ^ k.dim + q) :=
        (covers_iff (x := e + c1 * k.vX + c * k.ne) hQd).mpr (by rw [hdiv, hvX, Nat.mul_zero, Nat.add_zero])
      rw [if_pos hcov, sweep_term hk hc1, hvX,
        Nat.mul_zero, Nat.add_zero, Nat.add_sub_cancel_left]
    · intro c' _ hne
      refine List.sum_eq_zero fun x hx => ?_
      simp only [List.mem_map] at hx
      obtain ⟨w, ⟨c1, -, rfl⟩, rfl⟩ := hx
      exact if_neg (hz e c' c1 he fun h => hne h.2)
    · intro h
      exact absurd (Finset.mem_range.mpr hc) h
    · intro e' he' hne
      refine List.sum_eq_zero fun x hx => ?_
      simp only [List.mem_map, List.mem_flatMap] at hx
      obtain ⟨w, ⟨c', -, c1, -, rfl⟩, rfl⟩ := hx
      exact if_neg (hz e' c' c1 ((mem_cells hb).mp he').1 fun h => hne h.1)
  · rw [hs]
    have hb := Nat.mod_lt (i / k.Q ^ k.dim % k.ne) hk.G
    unfold TK.jobs
    rw [effs_cons, htr, sweeps_add hk.dim (sweeps_op hk hb), load_keep_v hk, List.sum_eq_zero, add_zero]
    intro x hx
    obtain ⟨w, hw, rfl⟩ := List.mem_map.mp hx
    refine if_neg fun hcov => ?_
    obtain ⟨e', he', hm', c', hc', c1', hc1', rfl⟩ := (mem_sweeps hk hb).mp hw
    have h := (covers_iff hQd).mp hcov
    rw [← Nat.le_div_iff_mul_le hQd, h, hvX, Nat.mul_zero, Nat.add_zero] at hi
    have := enc_lt hc' he'
    omega

end

end Verif.Gpu
