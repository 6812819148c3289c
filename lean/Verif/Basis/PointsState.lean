import Verif.Basis.PointsBasis
import Verif.Basis.Props

/-!
# Evaluation at points: states of the basis (helper lemmas)
-/

namespace Verif
namespace Basis

open Finset Polynomial
open Restriction (TMode)

set_option linter.unusedSectionVars false

variable {K : Type} [Field K] [LinearOrder K] [IsStrictOrderedRing K]

local notation "U" => Chebyshev.U K

/-- What all states of a basis have in common. -/
structure PInv (s0 s : PBas K) (i1 q : Buf K) : Prop where
  bas : s.bas = s0.bas
  ref : s.qRef = q
  cheb : ∀ c, s.cheb = some c → ChebOK s0.bas q i1 c

variable {s0 s : PBas K} {i1 g1 w q : Buf K}

theorem ensureCheb_ok {en : Env K} (hen : Exact en) (h0 : Fresh s0 i1 g1 w q) (h : PInv s0 s i1 q) :
    ∃ s' c, ensureCheb en s = .ok s' c ∧ PInv s0 s' i1 q ∧ s'.cheb = some c ∧ ChebOK s0.bas q i1 c := by
  obtain ⟨hT, hi, _, _⟩ := tensorOK_of h0.basis
  unfold ensureCheb
  cases hc : s.cheb with
  | some c => exact ⟨s, c, rfl, h, hc, h.cheb c hc⟩
  | none =>
    obtain ⟨c, e, hco⟩ := makeCheb_ok hen hT h0.two hi (by rw [h0.len]) h0.distinct h0.indep
    simp only
    rw [h.bas, h.ref, e, M.lift_ok, Out.bind_ok]
    refine ⟨_, c, rfl, ⟨h.bas, h.ref, ?_⟩, rfl, hco⟩
    intro c' hc'
    injection hc' with hc'
    subst hc'; exact hco

theorem setCoefs_ok {c : Bas K × Buf K} {co : Buf K} (h : PInv s0 s i1 q) (hc : s.cheb = some c) (hco : co.len = s0.bas.coefs) :
    ∃ s', setCoefs co s = .ok s' () ∧ PInv s0 s' i1 q := by
  unfold setCoefs
  rw [hc]
  refine ⟨_, rfl, h.bas, h.ref, ?_⟩
  intro c' hc'
  injection hc' with hc'
  subst hc'
  obtain ⟨ci, g, w, a1, a2, a3, a4, a5, a6, a7⟩ := h.cheb c hc
  exact ⟨ci, g, w, a1, a2, a3, a4, a5, hco, a7⟩

/-- Node values to Chebyshev coefficients. -/
theorem cheb_nt {c : Bas K × Buf K} (h : ChebOK s0.bas q i1 c) (hP : s0.bas.P = s0.bas.P1 ^ s0.bas.dim) (junk : Nat → Nat → K) {u : Buf K}
    (hu : s0.bas.nc * s0.bas.P ≤ u.len) :
    ∃ ci co, Coeffs q i1 ci s0.bas.P1 s0.bas.Q1 ∧ apply c.1 junk 1 .noTranspose .interp (some u) c.2 = .ok co ∧ co.len = s0.bas.coefs ∧
      ∀ k < s0.bas.nc, ∀ l < s0.bas.Q1 ^ s0.bas.dim, co.val (k * s0.bas.Q1 ^ s0.bas.dim + l) =
        ∑ n ∈ range s0.bas.P, (∏ d ∈ range s0.bas.dim, ci.val (coord s0.bas.Q1 d l * s0.bas.P1 + coord s0.bas.P1 d n)) *
          u.val (k * s0.bas.P + n) := by
  obtain ⟨ci, g, w, a1, a2, a3, a4, a5, a6, a7⟩ := h
  obtain ⟨hT, _⟩ := tensorOK_of a1
  obtain ⟨m, _, hm, hmul, _⟩ := C21_interp_partial a1
  have hP' : c.1.P = s0.bas.P := by rw [hT.hP, a4, a2, hP]
  have hQ' : c.1.Q = s0.bas.Q1 ^ s0.bas.dim := by rw [hT.hQ, a5, a2]
  have hqc : c.1.qComp .interp = 1 := by simp [Bas.qComp, hT.h1]
  obtain ⟨co, e, h1, h2, _⟩ := hmul junk 1 u c.2 (by rw [a3, hP', one_mul]; exact hu) (by
    rw [a6, hQ', a3, hqc]; unfold Bas.coefs
    have : 1 * s0.bas.Q1 ^ s0.bas.dim * s0.bas.nc * 1 = s0.bas.nc * s0.bas.Q1 ^ s0.bas.dim := by ring
    omega)
  refine ⟨ci, co, a7, e, h1.trans a6, ?_⟩
  intro k hk l hl
  have := h2 0 (by omega) k (by omega) l (by omega) 0 (by omega)
  simp only [quadPos, rowTimes, nodePos, hP', hQ', zero_mul, zero_add, mul_one, add_zero] at this
  rw [this]
  refine sum_congr rfl fun n hn => ?_
  have := hm l (by omega) n (by rw [hP']; exact mem_range.1 hn)
  rw [hP', a2, a4, a5] at this
  rw [this]

/-- Chebyshev coefficients to node values, with the transpose. -/
theorem cheb_t {c : Bas K × Buf K} (h : ChebOK s0.bas q i1 c) (hP : s0.bas.P = s0.bas.P1 ^ s0.bas.dim) :
    ∃ ci, Coeffs q i1 ci s0.bas.P1 s0.bas.Q1 ∧
      (∀ (junk : Nat → Nat → K) (co v : Buf K), co.len = s0.bas.coefs → s0.bas.nc * s0.bas.P ≤ v.len →
        ∃ v', apply c.1 junk 1 .transpose .interp (some co) v = .ok v' ∧ v'.len = v.len ∧
          (∀ k < s0.bas.nc, ∀ n < s0.bas.P, v'.val (k * s0.bas.P + n) = ∑ l ∈ range (s0.bas.Q1 ^ s0.bas.dim),
            (∏ d ∈ range s0.bas.dim, ci.val (coord s0.bas.Q1 d l * s0.bas.P1 + coord s0.bas.P1 d n)) *
              co.val (k * s0.bas.Q1 ^ s0.bas.dim + l)) ∧
          ∀ x, s0.bas.nc * s0.bas.P ≤ x → x < v.len → v'.val x = 0) ∧
      ((∃ n < s0.bas.P1, ∃ i < s0.bas.Q1, i1.val (i * s0.bas.P1 + n) ≠ (U (n : Int)).eval (q.val i)) →
        ∀ (junk : Nat → Nat → K) (co v : Buf K), co.len = s0.bas.coefs → s0.bas.nc * s0.bas.P ≤ v.len →
        ∃ v', applyAdd c.1 junk 1 .transpose .interp (some co) v = .ok v' ∧ v'.len = v.len ∧
          (∀ k < s0.bas.nc, ∀ n < s0.bas.P, v'.val (k * s0.bas.P + n) = v.val (k * s0.bas.P + n) +
            ∑ l ∈ range (s0.bas.Q1 ^ s0.bas.dim),
              (∏ d ∈ range s0.bas.dim, ci.val (coord s0.bas.Q1 d l * s0.bas.P1 + coord s0.bas.P1 d n)) *
                co.val (k * s0.bas.Q1 ^ s0.bas.dim + l)) ∧
          ∀ x, s0.bas.nc * s0.bas.P ≤ x → v'.val x = v.val x) := by
  obtain ⟨ci, g, w, a1, a2, a3, a4, a5, a6, a7⟩ := h
  obtain ⟨hT, hI, _⟩ := tensorOK_of a1
  obtain ⟨m, em, hm, _, hmul⟩ := C21_interp_partial a1
  have hP' : c.1.P = s0.bas.P := by rw [hT.hP, a4, a2, hP]
  have hQ' : c.1.Q = s0.bas.Q1 ^ s0.bas.dim := by rw [hT.hQ, a5, a2]
  have hqc : c.1.qComp .interp = 1 := by simp [Bas.qComp, hT.h1]
  have hcol : ∀ co : Buf K, ∀ k, ∀ n < s0.bas.P, colTimes c.1 (c.1.qComp .interp) 1 m co k n 0 = ∑ l ∈ range (s0.bas.Q1 ^ s0.bas.dim),
      (∏ d ∈ range s0.bas.dim, ci.val (coord s0.bas.Q1 d l * s0.bas.P1 + coord s0.bas.P1 d n)) *
        co.val (k * s0.bas.Q1 ^ s0.bas.dim + l) := by
    intro co k n hn
    unfold colTimes
    rw [hqc, sum_range_one, hQ']
    refine sum_congr rfl fun l hl => ?_
    have := hm l (by rw [hQ']; exact mem_range.1 hl) n (by omega)
    rw [hP', a2, a4, a5] at this
    simp only [quadPos, zero_mul, zero_add, mul_one, add_zero, hP', this]
  have hw : ∀ co : Buf K, co.len = s0.bas.coefs → 1 * c.1.nc * c.1.Q * c.1.qComp .interp ≤ co.len := by
    intro co hco
    rw [hco, hQ', a3, hqc, one_mul, mul_one]
    exact le_rfl
  refine ⟨ci, a7, ?_, ?_⟩
  · intro junk co v hco hv
    obtain ⟨v', e, h1, h2, h3⟩ := hmul junk 1 co v (hw co hco) (by rw [a3, hP', one_mul]; exact hv)
    refine ⟨v', e, h1, ?_, ?_⟩
    · intro k hk n hn
      have := h2 k (by omega) n (by omega) 0 (by omega)
      rw [hcol co k n hn] at this
      simpa only [nodePos, mul_one, add_zero, hP'] using this
    · intro x hx hxv
      exact h3 x (by rw [a3, hP', mul_one]; exact hx) hxv
  · rintro ⟨n, hn, i, hi, hne⟩ junk co v hco hv
    have hcf : c.1.colloInterp = false := by
      by_contra hcc
      have hcc : c.1.colloInterp = true := by simpa using hcc
      obtain ⟨h1, _, h2⟩ := hT.colloI hcc
      refine hne ?_
      rw [← a7 i hi n hn]
      rw [a4] at h1 h2
      rw [a5] at h1
      calc ∑ k ∈ range s0.bas.Q1, ci.val (k * s0.bas.P1 + n) * (U (k : Int)).eval (q.val i)
          = ∑ k ∈ range s0.bas.Q1, if k = n then (U (k : Int)).eval (q.val i) else 0 := by
            refine sum_congr rfl fun k hk => ?_
            have hkq := mem_range.1 hk
            have h3 := hI k n
            unfold Bas.I1 at h3
            rw [a4, h2 k (by omega) n hn] at h3
            rw [← h3]
            split <;> simp
        _ = _ := by
            rw [sum_ite_eq' (range s0.bas.Q1) n (fun k : Nat => (U (k : Int)).eval (q.val i)), if_pos (mem_range.2 (by omega))]
    obtain ⟨⟨m', em', _, hadd⟩, _⟩ := C23_applyAdd_tensor_partial a1 hcf
    have : m' = m := by rw [em] at em'; injection em' with em'; injection em' with em'; exact em'.symm
    subst this
    obtain ⟨v', e, h1, h2, h3⟩ := hadd junk 1 co v (hw co hco) (by rw [a3, hP', one_mul]; exact hv)
    refine ⟨v', e, h1, ?_, ?_⟩
    · intro k hk n hn
      have := h2 k (by omega) n (by omega) 0 (by omega)
      rw [hcol co k n hn] at this
      simpa only [nodePos, mul_one, add_zero, hP'] using this
    · intro x hx
      exact h3 x (by rw [a3, hP', mul_one]; exact hx)

/-- The documented lengths pass the check of the lengths. -/
theorem checkDims_nt {b : Bas K} {em : EMode} (hem : em = .interp ∨ em = .grad) {np : Buf Nat} (hnp : 0 < np.len) {x u v : Buf K}
    (hx : np.val 0 * b.dim ≤ x.len) (hu : b.nc * b.P ≤ u.len) : checkDimsP b 1 np .noTranspose em (some x) (some u) v = .ok () := by
  unfold checkDimsP
  have hl : loop 1 (fun i t => do
    let n ← np.rd i
    Res.ok (t + n)) 0 = .ok (np.val 0) := by simp [loop, Buf.rd, hnp]
  rw [hl, Res.bind_ok]
  rcases hem with rfl | rfl <;> simp [Res.check, hx] <;> intro _ <;> rw [Nat.mul_comm] <;> exact hu

theorem checkDims_t {b : Bas K} {em : EMode} (hem : em = .interp ∨ em = .grad) {np : Buf Nat} (hnp : 0 < np.len) {x u v : Buf K}
    (hx : np.val 0 * b.dim ≤ x.len) (hv : b.nc * b.P ≤ v.len) : checkDimsP b 1 np .transpose em (some x) (some u) v = .ok () := by
  unfold checkDimsP
  have hl : loop 1 (fun i t => do
    let n ← np.rd i
    Res.ok (t + n)) 0 = .ok (np.val 0) := by simp [loop, Buf.rd, hnp]
  rw [hl, Res.bind_ok]
  rcases hem with rfl | rfl <;> simp [Res.check, hx] <;> intro _ <;> rw [Nat.mul_comm] <;> exact hv

/-! Lengths are kept, whatever the arguments. -/

theorem loop_keeps {σ : Type _} {n : Nat} {body : Nat → σ → Res σ} (I : σ → Prop) (h : ∀ i s s', I s → body i s = .ok s' → I s') :
    ∀ {s s'}, I s → loop n body s = .ok s' → I s' := by
  induction n with
  | zero => intro s s' hs e; injection e with e; subst e; exact hs
  | succ n ih =>
    intro s s' hs e
    rw [loop_succ, Res.bind_eq_ok] at e
    obtain ⟨s1, e1, e2⟩ := e
    exact h n s1 s' (ih hs e1) e2

theorem wr_keeps {v v' : Buf K} {i : Nat} {x : K} (h : v.wr i x = .ok v') : v'.len = v.len := by
  unfold Buf.wr at h
  split at h
  · injection h with h; subst h; rfl
  · cases h

theorem addAt_keeps {v v' : Buf K} {i : Nat} {x : K} (h : v.addAt i x = .ok v') : v'.len = v.len := by
  unfold Buf.addAt at h
  rw [Res.bind_eq_ok] at h
  obtain ⟨_, _, h⟩ := h
  exact wr_keeps h

theorem contract_keeps {A B C J : Nat} {t : Buf K} {tof : Nat} {tm : TMode} {add : Bool} {u : Buf K} {uo : Nat} {v v' : Buf K} {vo : Nat}
    (h : contract A B C J t tof tm add u uo v vo = .ok v') : v'.len = v.len := by
  unfold contract at h
  simp only at h
  have hmain : ∀ v1 v2 : Buf K, loop A (fun a v => loop B (fun b v => loop J (fun j v => do
      let tq ← t.rd (tof + (j * (tStride tm B J).1 + b * (tStride tm B J).2))
      loop C (fun c v => do
        let x ← u.rd (uo + ((a * B + b) * C + c))
        v.addAt (vo + ((a * J + j) * C + c)) (tq * x)) v) v) v) v1 = .ok v2 → v2.len = v1.len := by
    intro v1 v2 e
    refine loop_keeps (fun s : Buf K => s.len = v1.len) (fun a s s' hs e => ?_) rfl e
    refine loop_keeps (fun s : Buf K => s.len = v1.len) (fun b s s' hs e => ?_) hs e
    refine loop_keeps (fun s : Buf K => s.len = v1.len) (fun j s s' hs e => ?_) hs e
    rw [Res.bind_eq_ok] at e
    obtain ⟨tq, _, e⟩ := e
    refine loop_keeps (fun s : Buf K => s.len = v1.len) (fun c s s' hs e => ?_) hs e
    rw [Res.bind_eq_ok] at e
    obtain ⟨x, _, e⟩ := e
    exact (addAt_keeps e).trans hs
  split at h
  · exact hmain _ _ h
  · rw [Res.bind_eq_ok] at h
    obtain ⟨v1, e1, e2⟩ := h
    rw [hmain _ _ e2]
    exact loop_keeps (fun s : Buf K => s.len = v.len) (fun q s s' hs e => (wr_keeps e).trans hs) rfl e1

theorem chain_keeps {dim nc ne P Q size : Nat} {mat : Nat → Buf K} {tm : TMode} {add : Bool} {junk : Nat → Nat → K} {u : Buf K} {uo : Nat}
    {v v' : Buf K} {vo : Nat} (h : chain dim nc ne P Q size mat tm add junk u uo v vo = .ok v') : v'.len = v.len := by
  unfold chain at h
  rw [Res.bind_eq_ok] at h
  obtain ⟨s, e, h⟩ := h
  injection h with h
  subst h
  refine loop_keeps (fun s : ChainSt K => s.out.len = v.len) (fun d s s' hs e => ?_) rfl e
  simp only at e
  split at e
  · simp only [Res.bind_eq_ok] at e
    obtain ⟨o, e1, a, ea, e2⟩ := e
    injection ea with ea
    subst ea
    injection e2 with e2
    subst e2
    exact (contract_keeps e1).trans hs
  · split at e
    · simp only [Res.bind_eq_ok] at e
      obtain ⟨o, e1, a, ea, e2⟩ := e
      injection ea with ea
      subst ea
      injection e2 with e2
      subst e2
      exact hs
    · simp only [Res.bind_eq_ok] at e
      obtain ⟨o, e1, a, ea, e2⟩ := e
      injection ea with ea
      subst ea
      injection e2 with e2
      subst e2
      exact hs

theorem gatherPoint_keeps {b : Bas K} {np p : Nat} {x u : Buf K} {deriv : Nat → Bool} {pos : Nat → Nat} {add : Bool} {junk : Nat → Nat → K}
    {co co' : Buf K} (h : gatherPoint b np p x u deriv pos add junk co = .ok co') : co'.len = co.len := by
  unfold gatherPoint at h
  simp only [Res.bind_eq_ok] at h
  obtain ⟨_, _, _, _, h⟩ := h
  exact chain_keeps h

theorem fromPoints_keeps {b : Bas K} {em : EMode} {np : Nat} {x u : Buf K} {junk : Nat → Nat → Nat → Nat → K} {co co' : Buf K}
    (h : fromPoints b em np x u junk co = .ok co') : co'.len = co.len := by
  unfold fromPoints at h
  split at h
  · exact loop_keeps (fun s : Buf K => s.len = co.len) (fun p s s' hs e => (gatherPoint_keeps e).trans hs) rfl h
  · exact loop_keeps (fun s : Buf K => s.len = co.len) (fun p s s' hs e =>
      loop_keeps (fun s : Buf K => s.len = co.len) (fun p s s' hs e => (gatherPoint_keeps e).trans hs) hs e) rfl h
  · injection h with h; subst h; rfl

theorem lift_post {σ β : Type _} {r : Res β} {s : σ} (P : σ → Prop) (h : P s) : ((M.lift r : M σ β) s).Post P := by
  cases r <;> simp [h]

theorem lift_bind {σ β γ : Type _} {r : Res β} {s : σ} (P : σ → Prop) {f : σ → β → Out σ γ} (h : P s)
    (hf : ∀ a, r = .ok a → (f s a).Post P) : (((M.lift r : M σ β) s).bind f).Post P := by
  cases r with
  | ok a => exact hf a rfl
  | err e => exact h
  | ub => trivial

theorem check_bind {σ γ : Type _} {c : Prop} [Decidable c] {e : Err} {s : σ} (P : σ → Prop) {f : σ → Unit → Out σ γ} (h : P s)
    (hf : c → (f s ()).Post P) : (((M.check c e : M σ Unit) s).bind f).Post P := by
  rw [M.check_apply]
  split
  · next hc => exact hf hc
  · exact h

theorem corePoints_post {en : Env K} (hen : Exact en) (h0 : Fresh s0 i1 g1 w q) (h : PInv s0 s i1 q) {add : Bool} {ne : Nat} {np : Buf Nat}
    {tm : TMode} {em : EMode} {x u : Option (Buf K)} {v : Buf K} :
    (corePoints en add ne np tm em x u v s).Post (fun s' => PInv s0 s' i1 q) := by
  obtain ⟨hT, _⟩ := tensorOK_of h0.basis
  unfold corePoints
  let P : PBas K → Prop := fun s' => PInv s0 s' i1 q
  rw [M.bind_apply]
  refine lift_bind P h fun total _ => ?_
  rw [M.bind_apply]
  refine check_bind P h fun _ => ?_
  rw [M.bind_apply]
  refine check_bind P h fun _ => ?_
  rw [M.bind_apply]
  refine check_bind P h fun _ => ?_
  split
  · exact lift_post P h
  · rw [M.bind_apply]
    obtain ⟨s5, c, e, h, hc, hco⟩ := ensureCheb_ok hen h0 h
    rw [e, Out.bind_ok]
    cases tm with
    | noTranspose =>
      simp only
      rw [M.bind_apply]
      refine lift_bind P h fun co e6 => ?_
      have hlen : co.len = s0.bas.coefs := by
        cases hu : u with
        | none =>
          rw [hu] at e6
          exfalso
          obtain ⟨ci, g, w, a1, a2, a3, a4, a5, a6, a7⟩ := hco
          obtain ⟨hT', _⟩ := tensorOK_of a1
          unfold apply checkDims at e6
          have h1 : 0 < c.1.nc * c.1.P := Nat.mul_pos hT'.nc (by rw [hT'.hP]; exact Nat.pow_pos hT'.P1)
          rw [Res.check_false] at e6
          · simp at e6
          · simp only [Bool.and_eq_true, decide_eq_true_eq, not_and]
            intro _; rw [one_mul]; omega
        | some ua =>
          rw [hu] at e6
          have hul : s0.bas.nc * s0.bas.P ≤ ua.len := by
            obtain ⟨ci, g, w, a1, a2, a3, a4, a5, a6, a7⟩ := hco
            obtain ⟨hT', _⟩ := tensorOK_of a1
            unfold apply checkDims at e6
            rw [Res.bind_eq_ok] at e6
            obtain ⟨_, e6, _⟩ := e6
            rw [Res.check_eq_ok] at e6
            simp only [Bool.and_eq_true, decide_eq_true_eq] at e6
            have := e6.2
            rw [hT'.hP, a2, a3, a4] at this
            rw [one_mul] at this
            rw [hT.hP]; exact this
          obtain ⟨ci, co', _, e', h1, _⟩ := cheb_nt hco hT.hP en.junk hul
          rw [e'] at e6
          injection e6 with e6
          subst e6; exact h1
      obtain ⟨s7, e7, h⟩ := setCoefs_ok h hc hlen
      rw [M.bind_apply, e7, Out.bind_ok, M.bind_apply]
      refine lift_bind P h fun xa _ => ?_
      exact lift_post P h
    | transpose =>
      simp only
      rw [M.bind_apply]
      refine lift_bind P h fun xa _ => ?_
      rw [M.bind_apply]
      refine lift_bind P h fun ua _ => ?_
      rw [M.bind_apply]
      refine lift_bind P h fun co e6 => ?_
      have hlen : co.len = s0.bas.coefs := by
        rw [fromPoints_keeps e6]
        obtain ⟨ci, g, w, a1, a2, a3, a4, a5, a6, a7⟩ := hco
        exact a6
      obtain ⟨s7, e7, h⟩ := setCoefs_ok h hc hlen
      rw [M.bind_apply, e7, Out.bind_ok]
      split
      · exact lift_post P h
      · exact lift_post P h

theorem used_inv (h0 : Fresh s0 i1 g1 w q) (h : Used s0 s) : PInv s0 s i1 q := by
  induction h with
  | new => exact ⟨rfl, h0.ref, by rw [h0.cheb]; intro c hc; cases hc⟩
  | @apply s s' en ne np tm em x u v _ hen hr ih =>
    have : (applyAtPoints en ne np tm em x u v s).Post (fun s' => PInv s0 s' i1 q) :=
      lift_bind (fun s' => PInv s0 s' i1 q) ih (fun _ _ => corePoints_post hen h0 ih)
    rcases hr with ⟨v', e⟩ | ⟨e', e⟩ <;> rw [e] at this <;> exact this
  | @applyAdd s s' en ne np tm em x u v _ hen hr ih =>
    have : (applyAddAtPoints en ne np tm em x u v s).Post (fun s' => PInv s0 s' i1 q) :=
      check_bind (fun s' => PInv s0 s' i1 q) ih fun _ =>
        lift_bind (fun s' => PInv s0 s' i1 q) ih (fun _ _ => corePoints_post hen h0 ih)
    rcases hr with ⟨v', e⟩ | ⟨e', e⟩ <;> rw [e] at this <;> exact this

end Basis
end Verif
