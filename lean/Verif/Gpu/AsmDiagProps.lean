import Verif.Gpu.AsmDiagKernel
import Verif.Gpu.AsmProps
import Verif.Gpu.OperSpec
import Verif.Gpu.Props
import Verif.Operator.DiagProps

/-!
# C71: assembly of diagonals on a device
-/

set_option linter.unusedSectionVars false

namespace Verif.Gpu
open Finset
open Verif.Basis (EMode)
open Verif.Operator
open Verif.Restriction (RData Made Rep Rstr)

variable {α : Type} [CommRing α] {op : Oper α} {p : Prec α} {S : Meaning α}

/-! ## Specification -/

/-- Two active fields with the same basis and the same mode are separated by a field with the same basis and another
mode. (Every operator with one gradient and one interpolation on either side is of this kind.) -/
def Alternating (p : Prec α) (f : Nat → OField α) (ids : Nat → Option Nat) (n : Nat) : Prop :=
  ∀ i j, i < j → j < n → (f i).vec = .active → (f j).vec = .active → ids i = ids j → (f i).mode = (f j).mode →
    ∃ k, i < k ∧ k < j ∧ (f k).vec = .active ∧ ids k = ids i ∧ (f k).mode ≠ (f i).mode ∧ 0 < p.qComp (ids k) (f k).mode

/-- `CeedElemRestrictionApply` with `CEED_TRANSPOSE` of the unsigned copy adds what `D` says, without its signs (C61). -/
def ScatterUnsigned (x : CRstr) (D : RData α) : Prop :=
  ∀ u v : Buf α, D.ne * D.es * D.nc ≤ u.len → x.base.lSize ≤ v.len →
    Launches (applyCuda x .unsigned .transpose u v) fun s =>
      ∀ t, s .v t = v.val t + scatterG { D with coef := fun _ => Restriction.idCoef } u.val t

/-- The restriction of the point blocks: `num_comp^2` components of every node, one after the other. -/
def blockData (D : RData α) (node : Nat → Nat → Nat) : RData α where
  ne := D.ne
  es := D.es
  nc := D.nc * D.nc
  lidx e m k := node e m * (D.nc * D.nc) + k
  coef _ := Restriction.idCoef

/-! ## The parts of the tables -/

theorem diagDirs_dirs (prev : Option EMode) (d : Nat) (l : List (EMode × Nat)) :
    diagDirs prev d (l.map Prod.fst) = (dirs (fun _ => 2) prev d l).map (fun x => (x.1, x.2.2)) := by
  induction l generalizing prev d with
  | nil => rfl
  | cons x l ih =>
    obtain ⟨m, o⟩ := x
    simp only [List.map_cons, diagDirs, dirs, show 1 < 2 from by omega, if_true, List.map_cons, ih]

theorem dirs_block2 {qc : EMode → Nat} {m : EMode} (h1 : 1 < qc m) (off nc N : Nat) (prev : Option EMode) (d : Nat)
    (hp : prev ≠ some m) :
    dirs qc prev d ((List.range N).map (fun j => (m, off + j * nc))) =
      (List.range N).map (fun j => (m, off + j * nc, j)) := by
  rcases N with _ | n
  · simp [dirs]
  · have e := dirs_run h1 off nc 1 n 0
    rw [List.range_succ_eq_map, List.map_cons, dirs, if_pos h1, if_neg hp, List.map_cons]
    simp only []
    have r : List.map Nat.succ (List.range n) = List.range' 1 n := by
      refine List.ext_getElem (by simp) (fun i h1 h2 => ?_)
      simp [Nat.add_comm]
    rw [r, e, ← r, List.map_map]
    congr 1
    refine List.map_congr_left (fun j _ => ?_)
    simp only [Function.comp, Prod.mk.injEq, true_and]
    exact ⟨by congr 2; omega, by omega⟩

theorem dirs_alternating {f : Nat → OField α} {ids : Nat → Option Nat} {n : Nat} (bid : Option Nat)
    (halt : Alternating p f ids n) (hw : ∀ i < n, (f i).vec = .active → (f i).mode ≠ .weight) :
    dirs (fun _ => 2) none 0 (modesOf p f ids bid n) = dirModes p f ids bid n ∧
    ((dirSt (fun _ => 2) none 0 (modesOf p f ids bid n)).1 = none ∨
      ∃ i < n, (f i).vec = .active ∧ ids i = bid ∧
        (dirSt (fun _ => 2) none 0 (modesOf p f ids bid n)).1 = some (f i).mode ∧
        ∀ k, i < k → k < n → (f k).vec = .active → ids k = bid → p.qComp bid (f k).mode = 0) := by
  induction n with
  | zero => simp [modesOf, dirModes, dirs, dirSt]
  | succ n ih =>
    obtain ⟨ih1, ih2⟩ := ih (fun i j h1 h2 => halt i j h1 (by omega)) (fun i hi => hw i (by omega))
    rw [modesOf, dirModes, dirs_append, dirSt_append, ih1]
    by_cases hc : (f n).vec = .active ∧ ids n = bid
    · simp only [if_pos hc]
      have hnm : newModes p bid (f n).mode (offset f n) =
          (List.range (p.qComp bid (f n).mode)).map (fun d => ((f n).mode, offset f n + d * p.nc bid)) := by
        unfold newModes; rw [if_neg (hw n (by omega) hc.1)]
      rw [hnm]
      have hp : (dirSt (fun _ => 2) none 0 (modesOf p f ids bid n)).1 ≠ some (f n).mode := by
        rcases ih2 with h0 | ⟨i, hi, ha, hid, hpr, hrest⟩
        · rw [h0]; simp
        · rw [hpr]
          intro hh
          have hm := Option.some.inj hh
          obtain ⟨k, k1, k2, ka, kid, km, kq⟩ := halt i n hi (by omega) ha hc.1 (by rw [hid, hc.2]) hm
          have := hrest k k1 k2 ka (by rw [kid, hid])
          rw [kid, hid] at kq
          omega
      constructor
      · rw [dirs_block2 (by omega) _ _ _ _ _ hp]
      · by_cases h0 : p.qComp bid (f n).mode = 0
        · rw [h0]
          simp only [List.range_zero, List.map_nil, dirSt]
          rcases ih2 with hh | ⟨i, hi, ha, hid, hpr, hrest⟩
          · exact Or.inl hh
          · refine Or.inr ⟨i, by omega, ha, hid, hpr, fun k k1 k2 ka kid => ?_⟩
            rcases Nat.lt_succ_iff_lt_or_eq.1 k2 with k3 | k3
            · exact hrest k k1 k3 ka kid
            · subst k3; exact h0
        · refine Or.inr ⟨n, by omega, hc.1, hc.2, ?_, fun k k1 k2 => by omega⟩
          refine dirSt_run _ (f n).mode _ ?_ _ _ ?_
          · intro x hx
            rw [List.mem_map] at hx
            obtain ⟨d, _, rfl⟩ := hx
            rfl
          · intro hh
            rw [List.map_eq_nil_iff, List.range_eq_nil] at hh
            exact h0 hh
    · simp only [if_neg hc]
      constructor
      · simp [dirs]
      · rw [dirSt]
        rcases ih2 with hh | ⟨i, hi, ha, hid, hpr, hrest⟩
        · exact Or.inl hh
        · refine Or.inr ⟨i, by omega, ha, hid, hpr, fun k k1 k2 ka kid => ?_⟩
          rcases Nat.lt_succ_iff_lt_or_eq.1 k2 with k3 | k3
          · exact hrest k k1 k3 ka kid
          · subst k3; exact absurd ⟨ka, kid⟩ hc

theorem diagDirs_fst (prev : Option EMode) (d : Nat) (l : List EMode) : (diagDirs prev d l).map Prod.fst = l := by
  induction l generalizing prev d with
  | nil => rfl
  | cons m l ih => simp only [diagDirs, List.map_cons, ih]

section
variable {f : Nat → OField α} {ids : Nat → Option Nat} {ms : Nat → Buf α} {n r : Nat} {a : ABasis}

/-- The entries the kernel uses for entry `x` of the modes. -/
structure TabOf (op : Oper α) (p : Prec α) (a : ABasis) (es : Nat) (V : Buf α) (x : Nat) : Prop where
  mem : (dirAt (a.modes.map Prod.fst) x).1 ∈ a.modes.map Prod.fst
  lt : (dirAt (a.modes.map Prod.fst) x).2 < p.qComp a.bid (dirAt (a.modes.map Prod.fst) x).1
  none : (dirAt (a.modes.map Prod.fst) x).1 = .none → p.qComp a.bid .none = 1
  ptr : ∃ B, basisPtr p a.bid (dirAt (a.modes.map Prod.fst) x).1 (ident es op.Q) = .ok B ∧
    es * op.Q * p.qComp a.bid (dirAt (a.modes.map Prod.fst) x).1 ≤ B.len ∧
    ∀ q < op.Q, ∀ m < es, B.val ((dirAt (a.modes.map Prod.fst) x).2 * op.Q * es + (q * es + m)) =
      V.val ((q * a.modes.length + x) * es + m)

theorem tabOf (h : Side op p S f ids ms n a r) (ha : (asmData p f ids n).1 = [a]) (halt : Alternating p f ids n) {V : Buf α}
    (hV : ∀ i < n, (f i).vec = .active → ∀ d < (f i).qc, ∀ q < op.Q,
      ∀ m < (S.D r).es, V.val ((q * a.modes.length + (firstMode p f ids a.bid i + d)) * (S.D r).es + m) =
        S.bF op (f i) (ms i) d q m) {x : Nat} (hx : x < a.modes.length) : TabOf op p a (S.D r).es V x := by
  have hx' := hx
  rw [h.len] at hx'
  obtain ⟨i, hi, hai, hid, d, hd, rfl⟩ := firstMode_surj hx'
  have ff := (h.fields i hi hai).2.2
  have e1 := dirModes_get (p := p) (bid := a.bid) hi hai hid hd
  have hm : a.modes.map Prod.fst = (modesOf p f ids a.bid n).map Prod.fst :=
    ((asmData_fst p f ids n).2.2 a (by rw [ha]; simp)).1
  have hdir : dirAt (a.modes.map Prod.fst) (firstMode p f ids a.bid i + d) = ((f i).mode, d) := by
    unfold dirAt
    rw [hm, diagDirs_dirs, (dirs_alternating a.bid halt (fun i hi hai => (h.fields i hi hai).2.2.weight)).1,
      List.getElem?_map, e1]
    rfl
  have hd' := hd
  rw [ff.qc] at hd'
  refine ⟨?_, ?_, ?_, ?_⟩
  · have hl : (diagDirs none 0 (a.modes.map Prod.fst)).length = a.modes.length := by
      have := congrArg List.length (diagDirs_fst none 0 (a.modes.map Prod.fst))
      simpa using this
    have hmem : dirAt (a.modes.map Prod.fst) (firstMode p f ids a.bid i + d) ∈ diagDirs none 0 (a.modes.map Prod.fst) := by
      unfold dirAt
      rw [List.getElem?_eq_getElem (by rw [hl]; exact hx), Option.getD_some]
      exact List.getElem_mem _
    have := List.mem_map_of_mem (f := Prod.fst) hmem
    rwa [diagDirs_fst] at this
  · rw [hdir]; exact hd
  · rw [hdir]
    intro h0
    have h1 := ff.qc
    simp only at h0
    rw [h0] at h1
    rw [h1, qc_none h0]
  · obtain ⟨B, b1, b2, b3⟩ := ff.ptr
    rw [h.dat hi hai] at b1 b2 b3
    rw [hdir]
    refine ⟨B, b1, ?_, fun q hq m hm => ?_⟩
    · simp only
      rw [ff.qc]
      calc (S.D r).es * op.Q * (f i).qc = (f i).qc * op.Q * (S.D r).es := by ring
        _ ≤ _ := b2
    · simp only
      rw [b3 d q m hq hm hd', hV i hi hai d hd' q hq m hm]

theorem diagTab_sides {z m : EMode} (hz : z ≠ .none) (hm : m ≠ .weight) : diagTab false z ≠ diagTab true m := by
  cases z <;> cases m <;> simp_all [diagTab]

theorem diagTab_inj (out : Bool) {m m' : EMode} (h : diagTab out m = diagTab out m') : m = m' := by
  cases out <;> cases m <;> cases m' <;> simp_all [diagTab]

/-- The tables of one side. -/
theorem devTabs_ok {bid : Option Nat} {P Q : Nat} {out : Bool} {l : List EMode} {t : Nat → Buf α}
    (h : ∀ m ∈ l, ∃ B, basisPtr p bid m (ident P Q) = .ok B ∧ P * Q * p.qComp bid m ≤ B.len) :
    ∃ t', devTabs p bid P Q out l t = .ok t' ∧
      (∀ m ∈ l, ∀ B, basisPtr p bid m (ident P Q) = .ok B → t' (diagTab out m) = ⟨P * Q * p.qComp bid m, B.val⟩) ∧
      ∀ j, (∀ m ∈ l, j ≠ diagTab out m) → t' j = t j := by
  induction l generalizing t with
  | nil => exact ⟨t, rfl, fun m hm => by simp at hm, fun _ _ => rfl⟩
  | cons m l ih =>
    obtain ⟨B, b1, b2⟩ := h m (by simp)
    obtain ⟨t', e1, e2, e3⟩ := ih (t := Function.update t (diagTab out m) ⟨P * Q * p.qComp bid m, B.val⟩)
      (fun m' hm' => h m' (by simp [hm']))
    refine ⟨t', ?_, ?_, ?_⟩
    · rw [devTabs, b1, Res.bind_ok, if_pos b2, e1]
    · intro m' hm' B' hB'
      by_cases hl : m' ∈ l
      · exact e2 m' hl B' hB'
      · have : m' = m := by simpa [hl] using hm'
        subst this
        rw [b1] at hB'
        cases hB'
        rw [e3 _ (fun k hk hh => hl (by rw [diagTab_inj out hh]; exact hk)), Function.update_self]
    · intro j hj
      rw [e3 j (fun k hk => hj k (by simp [hk])), Function.update_of_ne (hj m (by simp))]

end

/-! ## The launch -/

/-- The kernel of an operator with the active restriction `r` and the modes of `b` for the output. -/
def dkOf (op : Oper α) (S : Meaning α) (r : Nat) (b : ABasis) : DiagK :=
  ⟨b.modes.length, (S.D r).nc, (S.D r).es, op.Q, op.ne⟩

/-- Length of `elem_diag`. -/
def elemLen (op : Oper α) (S : Meaning α) (pb : Bool) (r : Nat) : Nat :=
  if pb then op.ne * ((S.D r).nc * (S.D r).nc) * (S.D r).es else op.ne * (S.D r).nc * (S.D r).es

set_option maxHeartbeats 1000000 in
theorem diag_dev (h : OpOK op S) (hp : FullOK op p S) {r : Nat} (hr : activePair op = .ok (r, r)) {a b : ABasis}
    (ha : (asmData p op.inp p.inB op.nin).1 = [a]) (hb : (asmData p op.out p.outB op.nout).1 = [b])
    (hai : Alternating p op.inp p.inB op.nin) (hao : Alternating p op.out p.outB op.nout)
    (hbas : ∀ i < op.nin, (op.inp i).vec = .active → p.inB i ≠ none) (dv : Device) (pb : Bool) {D : Buf α}
    (hD : D.len = op.alen) :
    ∃ t : Nat → Buf α, diagonalDev dv pb op p D = (do
        let L ← if 0 < (S.D r).es then runDev dv op.ne (S.D r).es (diagKernel (dkOf op S r b) pb (a.modes.map Prod.fst)
            (b.modes.map Prod.fst) op.ne) (memDiag t D ⟨elemLen op S pb r, fun _ => 0⟩)
          else .ok (noLaunch (memDiag t D ⟨elemLen op S pb r, fun _ => 0⟩))
        .ok (L, r, elemLen op S pb r)) ∧
      DiagMem (dkOf op S r b) pb (a.modes.map Prod.fst) (b.modes.map Prod.fst)
        (memDiag t D ⟨elemLen op S pb r, fun _ => 0⟩) ∧
      ∀ c < (dkOf op S r b).N pb, ∀ e, ∀ n < (S.D r).es, diagVal (dkOf op S r b) pb (a.modes.map Prod.fst)
        (b.modes.map Prod.fst) (memDiag t D ⟨elemLen op S pb r, fun _ => 0⟩).val c e n =
          elemSum op S (hostOf op D) e ((dkOf op S r b).ci pb c) ((dkOf op S r b).co pb c) n n := by
  obtain ⟨si, so⟩ := sides h hp hr ha hb
  obtain ⟨V, _, _, v3⟩ := si.basis
  obtain ⟨W, _, _, w3⟩ := so.basis
  have tI := fun {x} hx => tabOf (x := x) si ha hai v3 hx
  have tO := fun {x} hx => tabOf (x := x) so hb hao w3 hx
  obtain ⟨m1, m2, _, n1, _⟩ := pair_made h hp hr
  -- the input basis
  obtain ⟨i, hi, hia⟩ := si.ex
  have hF : Field op p S (op.inp i) (p.inB i) (S.mIn i) := by
    rcases hp.inB i hi hia with ⟨_, h0⟩ | hB
    · exact absurd h0 (hbas i hi hia)
    · refine field_aux hB ((h.inp i hi).active hia).2.2.1 (fun h1 h2 => ?_)
      have := h.inp i hi
      unfold InOK at this
      rcases hm : (op.inp i).mode with _ | _ | _ | _ | _ | _ <;> simp only [hm] at this
      case none => exact absurd hm h1
      case weight => exact absurd hm h2
      all_goals exact ⟨this.2.choose, this.2.choose_spec.1⟩
  have hid := (si.fields i hi hia).1
  rw [hid] at hF
  have fP := hF.P
  have fN := hF.nc
  have fQ := hF.Q
  rw [si.dat hi hia] at fP fN
  -- modes
  have memI : ∀ m ∈ a.modes.map Prod.fst, ∃ x < a.modes.length, (dirAt (a.modes.map Prod.fst) x).1 = m := by
    intro m hm
    rw [← diagDirs_fst none 0 (a.modes.map Prod.fst)] at hm
    obtain ⟨x, hx, hxe⟩ := List.getElem_of_mem hm
    have hl : (diagDirs none 0 (a.modes.map Prod.fst)).length = a.modes.length := by
      have := congrArg List.length (diagDirs_fst none 0 (a.modes.map Prod.fst))
      simpa using this
    rw [List.length_map] at hx
    refine ⟨x, by omega, ?_⟩
    unfold dirAt
    rw [List.getElem?_eq_getElem hx, Option.getD_some]
    rw [List.getElem_map] at hxe
    exact hxe
  have memO : ∀ m ∈ b.modes.map Prod.fst, ∃ x < b.modes.length, (dirAt (b.modes.map Prod.fst) x).1 = m := by
    intro m hm
    rw [← diagDirs_fst none 0 (b.modes.map Prod.fst)] at hm
    obtain ⟨x, hx, hxe⟩ := List.getElem_of_mem hm
    have hl : (diagDirs none 0 (b.modes.map Prod.fst)).length = b.modes.length := by
      have := congrArg List.length (diagDirs_fst none 0 (b.modes.map Prod.fst))
      simpa using this
    rw [List.length_map] at hx
    refine ⟨x, by omega, ?_⟩
    unfold dirAt
    rw [List.getElem?_eq_getElem hx, Option.getD_some]
    rw [List.getElem_map] at hxe
    exact hxe
  obtain ⟨t1, e1, e2, e3⟩ := devTabs_ok (p := p) (bid := a.bid) (P := (S.D r).es) (Q := op.Q) (out := false)
    (l := a.modes.map Prod.fst) (t := fun _ => ⟨0, fun _ => 0⟩) (fun m hm => by
      obtain ⟨x, hx, rfl⟩ := memI m hm
      obtain ⟨B, b1, b2, _⟩ := (tI hx).ptr
      exact ⟨B, b1, b2⟩)
  obtain ⟨t2, g1, g2, g3⟩ := devTabs_ok (p := p) (bid := b.bid) (P := (S.D r).es) (Q := op.Q) (out := true)
    (l := b.modes.map Prod.fst) (t := t1) (fun m hm => by
      obtain ⟨x, hx, rfl⟩ := memO m hm
      obtain ⟨B, b1, b2, _⟩ := (tO hx).ptr
      exact ⟨B, b1, b2⟩)
  -- the tables of the input are not overwritten
  have keep : ∀ x < a.modes.length, t2 (diagTab false (dirAt (a.modes.map Prod.fst) x).1) =
      t1 (diagTab false (dirAt (a.modes.map Prod.fst) x).1) := by
    intro x hx
    by_cases h0 : (dirAt (a.modes.map Prod.fst) x).1 = .none
    · rw [h0]
      by_cases hno : EMode.none ∈ b.modes.map Prod.fst
      · obtain ⟨y, hy, hy0⟩ := memO _ hno
        have q1 := (tI hx).none h0
        have q2 := (tO hy).none hy0
        have hmI := (tI hx).mem
        rw [h0] at hmI
        have r1 := g2 .none hno (ident (S.D r).es op.Q) rfl
        have r2 := e2 .none hmI (ident (S.D r).es op.Q) rfl
        rw [q2] at r1
        rw [q1] at r2
        exact r1.trans r2.symm
      · refine g3 _ fun m hm hh => ?_
        have : m = .none := by
          revert hh
          cases m <;> simp [diagTab]
        exact hno (this ▸ hm)
    · refine g3 _ fun m hm hh => ?_
      have hw : m ≠ .weight := by
        rintro rfl
        obtain ⟨y, hy, hy0⟩ := memO _ hm
        obtain ⟨B, b1, _⟩ := (tO hy).ptr
        rw [hy0] at b1
        cases b1
      exact diagTab_sides h0 hw hh
  refine ⟨t2, ?_, ⟨?_, ?_, ?_, ?_, ?_⟩, ?_⟩
  · have o1 : oneBasis p op.inp p.inB op.nin = .ok a := by unfold oneBasis; rw [ha]
    have o2 : oneBasis p op.out p.outB op.nout = .ok b := by unfold oneBasis; rw [hb]
    have hne : (op.rstrs r).numElem.toNat = op.ne := by rw [m1.rep.1.ne, n1]; rfl
    unfold diagonalDev
    rw [o1, Res.bind_ok, o2, Res.bind_ok]
    simp only [fP, fQ, fN]
    rw [e1, Res.bind_ok, g1, Res.bind_ok, hr, Res.bind_ok, Res.check_true rfl, Res.bind_ok]
    simp only [m1.rep.1.es, m1.rep.1.nc, hne, List.length_map]
    rfl
  · rw [List.length_map]; rfl
  · intro x hx
    rw [List.length_map] at hx
    obtain ⟨B, b1, b2, _⟩ := (tI hx).ptr
    show _ ≤ (t2 _).len
    rw [keep x hx, e2 _ (tI hx).mem B b1]
    have := Nat.mul_le_mul_right (op.Q * (S.D r).es) (tI hx).lt
    calc _ = ((dirAt (a.modes.map Prod.fst) x).2 + 1) * (op.Q * (S.D r).es) := rfl
      _ ≤ _ := this
      _ = _ := by ring
  · intro y hy
    rw [List.length_map] at hy
    obtain ⟨B, b1, b2, _⟩ := (tO hy).ptr
    show _ ≤ (t2 _).len
    rw [g2 _ (tO hy).mem B b1]
    have := Nat.mul_le_mul_right (op.Q * (S.D r).es) (tO hy).lt
    calc _ = ((dirAt (b.modes.map Prod.fst) y).2 + 1) * (op.Q * (S.D r).es) := rfl
      _ ≤ _ := this
      _ = _ := by ring
  · show _ ≤ D.len
    rw [hD]
    unfold Oper.alen
    rw [si.widthIn, so.widthOut, List.length_map, List.length_map]
    exact le_of_eq (by show a.modes.length * (S.D r).nc * b.modes.length * (S.D r).nc * op.ne * op.Q = _; ring)
  · show _ ≤ elemLen op S pb r
    unfold elemLen DiagK.N
    cases pb
    · exact le_of_eq (by show (S.D r).nc * op.ne * (S.D r).es = op.ne * (S.D r).nc * (S.D r).es; ring)
    · exact le_of_eq (by
        show (S.D r).nc * (S.D r).nc * op.ne * (S.D r).es = op.ne * ((S.D r).nc * (S.D r).nc) * (S.D r).es; ring)
  · intro c hc e n hn
    have hci := DiagK.ci_lt hc
    have hco := DiagK.co_lt hc
    rw [← sum_elem si so v3 w3 hn hn, sum_comm]
    unfold diagVal
    rw [List.length_map, List.length_map]
    refine sum_congr rfl (fun y hy => sum_congr rfl (fun x hx => ?_))
    rw [mem_range] at hx hy
    unfold diagTerm
    refine sum_congr rfl (fun q hq => ?_)
    have hq' : q < op.Q := mem_range.1 hq
    obtain ⟨B, b1, _, b3⟩ := (tI hx).ptr
    obtain ⟨Bt, d1, _, d3⟩ := (tO hy).ptr
    have vI : (memDiag t2 D ⟨elemLen op S pb r, fun _ => 0⟩).val
        (.table (diagTab false (dirAt (a.modes.map Prod.fst) x).1)) = B.val := by
      show (t2 _).val = _
      rw [keep x hx, e2 _ (tI hx).mem B b1]
    have vO : (memDiag t2 D ⟨elemLen op S pb r, fun _ => 0⟩).val
        (.table (diagTab true (dirAt (b.modes.map Prod.fst) y).1)) = Bt.val := by
      show (t2 _).val = _
      rw [g2 _ (tO hy).mem Bt d1]
    rw [vI, vO]
    refine congrArg₂ _ (congrArg₂ _ (d3 q hq' n hn) ?_) (b3 q hq' n hn)
    rw [hostOf_val D (by rw [si.widthIn]; exact enc_lt hx hci) (by rw [so.widthOut]; exact enc_lt hy hco) hq', so.widthOut]
    show D.val _ = D.val _
    congr 1
    show ((((x * (S.D r).nc + _) * b.modes.length + y) * (S.D r).nc + _) * op.ne + e) * op.Q + q = _
    ring

/-! ## The matrix -/

/-- The diagonal of the matrix when all active fields have the restriction `r`. -/
theorem form_one (h : OpOK op S) (hp : FullOK op p S) {r : Nat} (hr : activePair op = .ok (r, r))
    (hcurl : (op.rstrs r).rtype ≠ .curlOriented)
    (hinj : ∀ e < op.ne, ∀ m < (S.D r).es, ∀ m' < (S.D r).es, ∀ k < (S.D r).nc, ∀ k' < (S.D r).nc,
      (S.D r).lidx e m k = (S.D r).lidx e m' k' → m = m' ∧ k = k') (v : Buf α) (t : Nat) :
    S.form op v (fun x => if x = t then 1 else 0) t = ∑ e ∈ range op.ne, ∑ k ∈ range (S.D r).nc, ∑ n ∈ range (S.D r).es,
      if (S.D r).lidx e n k = t then elemSum op S v e k k n n else 0 := by
  obtain ⟨h1, h2⟩ := activePair_ok hr
  obtain ⟨k1, _⟩ := activeRstr_ok h1
  obtain ⟨k2, _⟩ := activeRstr_ok h2
  obtain ⟨m1, _, _, n1, _⟩ := pair_made h hp hr
  obtain ⟨_, σ, _, _, _, _, _, _, s1, s2⟩ := unsigned_rep m1 hcurl
  have dI : ∀ i < op.nin, (op.inp i).vec = .active → S.dat (op.inp i) = S.D r := by
    intro i hi ha; unfold Meaning.dat; rw [k1 i hi ha]; rfl
  have dO : ∀ o < op.nout, (op.out o).vec = .active → S.dat (op.out o) = S.D r := by
    intro o ho ha; unfold Meaning.dat; rw [k2 o ho ha]; rfl
  have hstep : ∀ e k n, (if (S.D r).lidx e n k = t then elemSum op S v e k k n n else 0) =
      ∑ o ∈ range op.nout, if (op.out o).vec = .active then ∑ i ∈ range op.nin, if (op.inp i).vec = .active then
        (if (S.D r).lidx e n k = t then S.kern op v o i e k n k n else 0) else 0 else 0 := by
    intro e k n
    by_cases hh : (S.D r).lidx e n k = t
    · simp only [if_pos hh]; rfl
    · simp only [if_neg hh, ite_self, sum_const_zero]
  rw [form_pairs]
  simp only [hstep]
  rw [(sum_congr rfl (fun e _ => (sum_congr rfl (fun k _ => sum_comm)).trans sum_comm)).trans sum_comm]
  refine sum_congr rfl (fun o ho => ?_)
  rw [mem_range] at ho
  by_cases hao : (op.out o).vec = .active
  swap
  · simp only [if_neg hao, sum_const_zero]
  simp only [if_pos hao]
  rw [(sum_congr rfl (fun e _ => (sum_congr rfl (fun k _ => sum_comm)).trans sum_comm)).trans sum_comm]
  refine sum_congr rfl (fun i hi => ?_)
  rw [mem_range] at hi
  by_cases hai : (op.inp i).vec = .active
  swap
  · simp only [if_neg hai, sum_const_zero]
  simp only [if_pos hai]
  rw [pair_same (σ := σ) (by rw [dI i hi hai, dO o ho hao]) (by rw [dI i hi hai]; exact s1) s2]
  · unfold nodal
    rw [dI i hi hai]
    refine sum_congr rfl (fun e he => sum_congr rfl (fun k hk => sum_congr rfl (fun n hn => ?_)))
    rw [mem_range] at he hk hn
    by_cases hh : (S.D r).lidx e n k = t
    · rw [if_pos hh, if_pos hh, sum_eq_single k]
      · rw [if_pos hh]
      · intro k' hk' hne
        rw [if_neg]
        intro hx
        exact hne (hinj e he n hn n hn k' (mem_range.1 hk') k hk (hx.trans hh.symm)).2
      · intro hx; exact absurd (mem_range.2 hk) hx
    · rw [if_neg hh, if_neg hh]
  · rw [dI i hi hai]
    intro e he m hm m' hm' k hk k' hk' e1 e2
    exact (hinj e he m hm m' hm' k hk k' hk' (e1.trans e2.symm)).1

theorem form_outside (h : OpOK op S) (hp : FullOK op p S) (v : Buf α) (u : Nat → α) {t : Nat} (ht : p.outSize ≤ t) :
    S.form op v u t = 0 := by
  unfold Meaning.form
  refine sum_eq_zero (fun o ho => ?_)
  rw [mem_range] at ho
  by_cases hA : (op.out o).vec = .active
  swap
  · rw [if_neg hA]
  rw [if_pos hA]
  refine sum_eq_zero (fun e he => sum_eq_zero (fun k hk => sum_eq_zero (fun n _ => sum_eq_zero (fun m hm => ?_))))
  rw [mem_range] at he hk hm
  obtain ⟨r, l, hr, hm', hne⟩ := (h.out o ho).active.1
  have hD : S.dat (op.out o) = S.D r := by unfold Meaning.dat; rw [hr]; rfl
  rw [hD] at hm hk ⊢
  have h1 := hm'.rep.1.rng e (by omega) m hm k hk
  have h2 := hp.outSize o ho hA r hr
  rw [if_neg]
  intro hx
  rw [hx] at h1
  omega

/-- What a scatter without signs adds. -/
theorem scatterG_id (D : RData α) (u : Nat → α) (t : Nat) :
    scatterG { D with coef := fun _ => Restriction.idCoef } u t =
      ∑ e ∈ range D.ne, ∑ k ∈ range D.nc, ∑ n ∈ range D.es, if D.lidx e n k = t then u (gPos D.ne D.es e k n) else 0 := by
  unfold scatterG
  refine sum_congr rfl (fun e _ => sum_congr rfl (fun k _ => sum_congr rfl (fun n hn => ?_)))
  rw [sum_eq_single n]
  · simp [Restriction.idCoef]
  · intro m _ hne
    split
    · unfold Restriction.idCoef; simp [hne]
    · rfl
  · intro hh; exact absurd hn hh

/-! ## The call -/

theorem runs_nothing {m : Mem α} {Q : Vals α → Prop} (h : Q m.val) : Runs 0 0 (launch (fun _ _ => pure ()) m) Q := by
  refine runs_apart (F := ⟨fun _ _ _ _ => False, fun _ _ => True, fun _ _ => False⟩)
    ⟨fun _ _ _ _ h _ => h.elim, fun _ _ h => h.elim, fun _ _ h => h.elim, fun _ h => h⟩
    (fun b hb => by omega) fun s _ _ ho => ?_
  have : s = m.val := by
    funext a i
    exact ho a i (fun h => h) fun _ _ _ _ h => h
  rwa [this]

/-- What the kernel leaves in `elem_diag`. -/
theorem diagonalDev_run (h : OpOK op S) (hp : FullOK op p S) (hai : Alternating p op.inp p.inB op.nin)
    (hao : Alternating p op.out p.outB op.nout) (hbas : ∀ i < op.nin, (op.inp i).vec = .active → p.inB i ≠ none)
    {dv : Device} {pb : Bool} {D : Buf α} (hD : D.len = op.alen) {Ln : Launch α} {r n : Nat}
    (e : diagonalDev dv pb op p D = .ok (Ln, r, n)) :
    activePair op = .ok (r, r) ∧ n = elemLen op S pb r ∧
    Runs Ln.G Ln.B Ln.cfg fun s => ∀ c < (dkOf op S r ⟨none, none, []⟩).N pb, ∀ e < op.ne, ∀ m < (S.D r).es,
      s .v (gPos op.ne (S.D r).es e c m) = elemSum op S (hostOf op D) e ((dkOf op S r ⟨none, none, []⟩).ci pb c)
        ((dkOf op S r ⟨none, none, []⟩).co pb c) m m := by
  obtain ⟨a, ha⟩ : ∃ a, (asmData p op.inp p.inB op.nin).1 = [a] := by
    rcases hx : (asmData p op.inp p.inB op.nin).1 with _ | ⟨a, _ | _⟩
    · unfold diagonalDev oneBasis at e; rw [hx] at e; cases e
    · exact ⟨a, rfl⟩
    · unfold diagonalDev oneBasis at e; rw [hx] at e; cases e
  obtain ⟨b, hb⟩ : ∃ b, (asmData p op.out p.outB op.nout).1 = [b] := by
    rcases hx : (asmData p op.out p.outB op.nout).1 with _ | ⟨b, _ | _⟩
    · unfold diagonalDev oneBasis at e; rw [ha, hx] at e; cases e
    · exact ⟨b, rfl⟩
    · unfold diagonalDev oneBasis at e; rw [ha, hx] at e; cases e
  have hr : ∃ r', activePair op = .ok (r', r') := by
    unfold diagonalDev at e
    obtain ⟨_, _, e⟩ := Res.bind_eq_ok.1 e
    obtain ⟨_, _, e⟩ := Res.bind_eq_ok.1 e
    obtain ⟨_, _, e⟩ := Res.bind_eq_ok.1 e
    obtain ⟨_, _, e⟩ := Res.bind_eq_ok.1 e
    obtain ⟨⟨r1, r2⟩, hr, e⟩ := Res.bind_eq_ok.1 e
    obtain ⟨_, hc, _⟩ := Res.bind_eq_ok.1 e
    have : r1 = r2 := Res.check_eq_ok.1 hc
    subst this
    exact ⟨r1, hr⟩
  obtain ⟨r', hr⟩ := hr
  obtain ⟨t, e1, e2, e3⟩ := diag_dev h hp hr ha hb hai hao hbas dv pb hD
  rw [e1] at e
  have hpos : ∀ c e m, gPos op.ne (S.D r').es e c m = (c * op.ne + e) * (S.D r').es + m := by
    intro c e m; unfold gPos; ring
  by_cases h0 : 0 < (S.D r').es
  · simp only [if_pos h0] at e
    obtain ⟨L, hL, e⟩ := Res.bind_eq_ok.1 e
    cases e
    refine ⟨hr, rfl, ?_⟩
    unfold runDev at hL
    by_cases hg : op.ne = 0 ∨ dv.maxThreads < (S.D r).es
    · rw [if_pos hg] at hL; cases hL
    · rw [if_neg hg] at hL
      cases hL
      refine (diag_runs (show 0 < op.ne by omega) h0 e2).mono fun s hs c hc e he m hm => ?_
      rw [hpos]
      refine (hs c hc e he m hm).trans ?_
      rw [e3 c hc e m hm]
      exact zero_add _
  · simp only [if_neg h0] at e
    cases e
    refine ⟨hr, rfl, runs_nothing ?_⟩
    intro c hc e he m hm
    omega

/-! ## The properties -/

/-- The diagonal that `CeedOperatorLinearAssembleAddDiagonal` adds on a device is that of the operator, for every schedule
of both kernels: the kernel that computes the diagonals of the elements and the scatter, which adds nothing outside of
the rows of the operator. `D` is the assembled QFunction and `X` the restriction of the active fields on the device.
(Missing: operators whose fields do not alternate and curl oriented restrictions, see the witnesses; active inputs without
basis; restrictions with an entry that occurs twice in an element.) -/
theorem C71_diagonal_partial (h : OpOK op S) (hp : FullOK op p S) (hsq : p.inSize = p.outSize)
    (hai : Alternating p op.inp p.inB op.nin) (hao : Alternating p op.out p.outB op.nout)
    (hbas : ∀ i < op.nin, (op.inp i).vec = .active → p.inB i ≠ none) (hlin : LinearQF op) {L : Nat → Nat → α} {D : Buf α}
    (hD : ColumnsDev op S L D) {dv : Device} {Ln : Launch α} {r n : Nat}
    (e : diagonalDev dv false op p D = .ok (Ln, r, n)) (hcurl : (op.rstrs r).rtype ≠ .curlOriented)
    (hinj : ∀ e < op.ne, ∀ m < (S.D r).es, ∀ m' < (S.D r).es, ∀ k < (S.D r).nc, ∀ k' < (S.D r).nc,
      (S.D r).lidx e m k = (S.D r).lidx e m' k' → m = m' ∧ k = k')
    {X : CRstr} (hX : ScatterUnsigned X (S.D r)) {v : Buf α} (hv : X.base.lSize ≤ v.len) {A : Nat → Nat → α}
    (hA : IsMatrix op S L p.inSize.toNat A) :
    Runs Ln.G Ln.B Ln.cfg fun s => Launches (diagScatter false X ⟨n, s .v⟩ v) fun s' =>
      (∀ t < p.inSize.toNat, s' .v t = v.val t + A t t) ∧ ∀ t, p.inSize.toNat ≤ t → s' .v t = v.val t := by
  obtain ⟨hr, rfl, hrun⟩ := diagonalDev_run h hp hai hao hbas hD.1 e
  obtain ⟨_, _, _, n1, _⟩ := pair_made h hp hr
  refine hrun.mono fun s hs => ?_
  obtain ⟨L', e1, e2⟩ := hX ⟨elemLen op S false r, s .v⟩ v
    (le_of_eq (by rw [n1]; unfold elemLen; simp only [Bool.false_eq_true, if_false]; ring)) hv
  refine ⟨L', e1, e2.mono fun s' hs' => ?_⟩
  have key : ∀ t, s' .v t = v.val t + S.form op (hostOf op D) (fun x => if x = t then 1 else 0) t := by
    intro t
    rw [hs' t, scatterG_id, form_one h hp hr hcurl hinj, n1]
    congr 1
    refine sum_congr rfl (fun e he => sum_congr rfl (fun k hk => sum_congr rfl (fun m hm => ?_)))
    rw [mem_range] at he hk hm
    split
    · exact hs k hk e he m hm
    · rfl
  refine ⟨fun t ht => ?_, fun t ht => ?_⟩
  · rw [key, hA.entry h hlin hD.host t ht]
  · rw [key, form_outside h hp _ _ (by rw [← hsq]; omega), add_zero]

theorem full_of_diag (hd : DiagOK op p S) : FullOK op p S :=
  ⟨fun i hi ha => Or.inr (hd.inB i hi ha), fun o ho ha => Or.inr (hd.outB o ho ha), hd.inSize, hd.outSize, hd.sepIn,
    hd.sepOut⟩

/-- The point block diagonal that `CeedOperatorLinearAssembleAddPointBlockDiagonal` adds on a device is that of the
operator: row `co` and column `ci` of the block of every node, for every schedule of both kernels. `X` is the restriction of
the blocks on the device. (Missing: as for the diagonal; operators whose active fields have different bases; other strides
between components.) -/
theorem C71_block_partial (h : OpOK op S) (hd : DiagOK op p S) {β ρ : Nat} {node : Nat → Nat → Nat}
    (hb : BlockOK op p S β ρ node)
    (hai : Alternating p op.inp p.inB op.nin) (hao : Alternating p op.out p.outB op.nout)
    (hlin : LinearQF op) {L : Nat → Nat → α} {D : Buf α}
    (hD : ColumnsDev op S L D) {dv : Device} {Ln : Launch α} {r n : Nat}
    (e : diagonalDev dv true op p D = .ok (Ln, r, n))
    {X : CRstr} (hX : ScatterBy X (blockData (S.D ρ) node)) {v : Buf α} (hv : X.base.lSize ≤ v.len) {A : Nat → Nat → α}
    (hA : IsMatrix op S L p.inSize.toNat A) :
    r = ρ ∧ Runs Ln.G Ln.B Ln.cfg fun s => Launches (diagScatter true X ⟨n, s .v⟩ v) fun s' =>
      (∀ a co ci, co < (S.D ρ).nc → ci < (S.D ρ).nc →
        ((op.rstrs ρ).compStride = 1 ∨ a < (op.rstrs ρ).compStride.toNat) →
        nodePos (op.rstrs ρ).compStride (S.D ρ).nc a ci < p.inSize.toNat →
        s' .v (a * ((S.D ρ).nc * (S.D ρ).nc) + (co * (S.D ρ).nc + ci)) =
          v.val (a * ((S.D ρ).nc * (S.D ρ).nc) + (co * (S.D ρ).nc + ci)) +
          A (nodePos (op.rstrs ρ).compStride (S.D ρ).nc a co) (nodePos (op.rstrs ρ).compStride (S.D ρ).nc a ci)) ∧
      ∀ a co ci, co < (S.D ρ).nc → ci < (S.D ρ).nc → (∀ e < op.ne, ∀ m < (S.D ρ).es, node e m ≠ a) →
        s' .v (a * ((S.D ρ).nc * (S.D ρ).nc) + (co * (S.D ρ).nc + ci)) =
          v.val (a * ((S.D ρ).nc * (S.D ρ).nc) + (co * (S.D ρ).nc + ci)) := by
  have hp := full_of_diag hd
  obtain ⟨hr, rfl, hrun⟩ := diagonalDev_run h hp hai hao
    (fun i hi ha => by rw [(hb.inB i hi ha).1]; simp) hD.1 e
  have hrρ : r = ρ := by
    obtain ⟨i, hi, ai⟩ := hb.some
    have := (activeRstr_ok (activePair_ok hr).1).1 i hi ai
    rw [(hb.inB i hi ai).2] at this
    exact (Option.some.inj this).symm
  subst hrρ
  obtain ⟨_, _, _, n1, _⟩ := pair_made h hp hr
  refine ⟨rfl, hrun.mono fun s hs => ?_⟩
  obtain ⟨L', e1, e2⟩ := hX ⟨elemLen op S true r, s .v⟩ v
    (le_of_eq (by
      show (S.D r).ne * (S.D r).es * ((S.D r).nc * (S.D r).nc) = _
      rw [n1]; unfold elemLen; simp only [if_true]; ring)) hv
  refine ⟨L', e1, e2.mono fun s' hs' => ?_⟩
  have key : ∀ t, s' .v t = v.val t + blockContr op p S (hostOf op D) β r node t := by
    intro t
    have := scatterG_id (blockData (S.D r) node) (s .v) t
    rw [hs' t]
    congr 1
    refine this.trans ?_
    unfold blockContr
    show ∑ e ∈ range (S.D r).ne, _ = _
    rw [n1]
    refine sum_congr rfl (fun e he => sum_congr rfl (fun k hk => sum_congr rfl (fun m hm => ?_)))
    rw [mem_range] at he hk hm
    have hb' : blockSum op p S (hostOf op D) (some β) e (k / (S.D r).nc) m (k % (S.D r).nc) m =
        elemSum op S (hostOf op D) e (k % (S.D r).nc) (k / (S.D r).nc) m m := by
      unfold blockSum elemSum
      refine sum_congr rfl (fun o ho => ?_)
      by_cases hao : (op.out o).vec = .active
      · rw [if_pos ⟨hao, (hb.outB o (mem_range.1 ho) hao).1⟩, if_pos hao]
        refine sum_congr rfl (fun i hi => ?_)
        by_cases hai : (op.inp i).vec = .active
        · rw [if_pos ⟨hai, (hb.inB i (mem_range.1 hi) hai).1⟩, if_pos hai]
        · rw [if_neg hai, if_neg (fun hh => hai hh.1)]
      · rw [if_neg hao, if_neg (fun hh => hao hh.1)]
    rw [hb']
    show (if node e m * ((S.D r).nc * (S.D r).nc) + k = t then s .v (gPos (S.D r).ne (S.D r).es e k m) else 0) = _
    rw [n1]
    split
    · exact hs k hk e he m hm
    · rfl
  refine ⟨fun a co ci hco hci hcs hlt => ?_, fun a co ci hco hci hno => ?_⟩
  · rw [key, hA.entry h hlin hD.host _ hlt, form_block h hd hb n1 _ hcs hco hci, blockContr_at op p S _ β r node hco hci]
  · rw [key, blockContr_at op p S _ β r node hco hci, sum_eq_zero, add_zero]
    intro e he
    refine sum_eq_zero (fun m hm => ?_)
    rw [if_neg (hno e (mem_range.1 he) m (mem_range.1 hm))]

/-- The scatter of the diagonal, for restrictions created from offsets, with atomic additions. -/
theorem C71_scatter {ne es nc : Nat} {cs lSize : Int} {offsets : Buf Int} {o : Restriction.Orient} {R : Rstr} {mt : MemType}
    {junk : Nat → Int} {X : CRstr} (h : Restriction.create false ne es nc cs lSize offsets o = .ok R)
    (hc : createCuda false mt junk R = .ok X) (hin : Restriction.OffsetsInRange ne es nc cs lSize offsets)
    (ho : R.rtype ≠ .curlOriented) :
    ScatterUnsigned X (Restriction.offsetData ne es nc cs offsets o .plain : RData α) ∧ X.base.lSize = lSize := by
  have hb := (createCuda_offset (α := α) (offsetArgs h) hc hin).1
  obtain ⟨ht, _, _, _, _, hl, _⟩ := Restriction.create_fields h
  rw [hb, hl]
  refine ⟨fun u v hu hv => ?_, rfl⟩
  rw [hb, hl] at hv
  obtain ⟨L, e1, _, e2⟩ := C61_scatter_atomic h hc hin .unsigned hu hv
  refine ⟨L, e1, e2.mono fun s hs t => ?_⟩
  rw [hs.1 t]
  cases o with
  | curl c => exact absurd ht ho
  | none => rfl
  | signs s => rfl

/-- The scatter of the point blocks, with atomic additions. -/
theorem C71_block_scatter (h : OpOK op S) {β ρ : Nat} {node : Nat → Nat → Nat} (hb : BlockOK op p S β ρ node)
    {rp : Rstr} (hrp : pointBlock false (op.rstrs ρ) = .ok rp) {mt : MemType} {junk : Nat → Int} {X : CRstr}
    (hc : createCuda false mt junk rp = .ok X) :
    ScatterBy X (blockData (S.D ρ) node) ∧ X.base.lSize = (op.rstrs ρ).lSize * (S.D ρ).nc := by
  obtain ⟨i, hi, ai⟩ := hb.some
  obtain ⟨r, l, hr, hm, hne⟩ := ((h.inp i hi).active ai).1
  rw [(hb.inB i hi ai).2] at hr
  cases hr
  have hN : Nodes (op.rstrs ρ) (S.D ρ) node := by
    intro e he m hm k hk
    exact hb.nodes e (by omega) m hm k hk
  obtain ⟨_, _, hrange, rp', ⟨_, hoff⟩, q1, _, q3, _⟩ := pointBlock_offsets hm hb.rtype hN false
  rw [q1] at hrp
  cases hrp
  have hrep := hm.rep.1
  unfold pointBlock at q1
  obtain ⟨offs, _, q1⟩ := Res.bind_eq_ok.1 q1
  have q : Restriction.create false (S.D ρ).ne (S.D ρ).es ((S.D ρ).nc * (S.D ρ).nc : Nat) 1
      ((op.rstrs ρ).lSize * (S.D ρ).nc) offs .none = .ok rp := by
    rw [← q1, hrep.ne, hrep.es, hrep.nc]
    push_cast
    rfl
  obtain ⟨_, _, _, _, _, _, _, _, _, _, ho, _⟩ := Restriction.create_fields q
  rw [ho] at hoff
  have hin : Restriction.OffsetsInRange (S.D ρ).ne (S.D ρ).es ((S.D ρ).nc * (S.D ρ).nc) 1
      ((op.rstrs ρ).lSize * (S.D ρ).nc) offs := by
    intro e he m hm' k hk
    rw [hoff e he m hm', mul_one]
    refine ⟨by positivity, ?_⟩
    have h1 := hrange e he m hm'
    have h2 : ((node e m * ((S.D ρ).nc * (S.D ρ).nc) : Nat) : Int) + k < (((node e m + 1) * (S.D ρ).nc * (S.D ρ).nc : Nat) : Int) := by
      have : node e m * ((S.D ρ).nc * (S.D ρ).nc) + k < (node e m + 1) * (S.D ρ).nc * (S.D ρ).nc := by
        calc _ < node e m * ((S.D ρ).nc * (S.D ρ).nc) + (S.D ρ).nc * (S.D ρ).nc := by omega
          _ = _ := by ring
      exact_mod_cast this
    refine lt_of_lt_of_le h2 ?_
    rw [Nat.cast_mul]
    exact mul_le_mul_of_nonneg_right h1 (by positivity)
  have hbase := (createCuda_offset (α := α) (offsetArgs q) hc hin).1
  refine ⟨fun u v hu hv => ?_, by rw [hbase, q3]⟩
  rw [hbase, q3] at hv
  obtain ⟨L, e1, _, e2⟩ := C61_scatter_atomic q hc hin .plain hu hv
  refine ⟨L, e1, e2.mono fun s hs t => ?_⟩
  rw [hs.1 t]
  congr 1
  unfold scatterG
  refine sum_congr rfl (fun e he => sum_congr rfl (fun k hk => sum_congr rfl (fun n hn => sum_congr rfl (fun m hm => ?_))))
  have he' := mem_range.1 he
  have hm' := mem_range.1 hm
  have : (Restriction.offsetData (S.D ρ).ne (S.D ρ).es ((S.D ρ).nc * (S.D ρ).nc) 1 offs .none .plain : RData α).lidx e m k =
      (blockData (S.D ρ) node).lidx e m k := by
    show (offs.val (e * (S.D ρ).es + m) + k * 1).toNat = _
    rw [hoff e he' m hm', mul_one]
    exact_mod_cast Int.toNat_natCast (node e m * ((S.D ρ).nc * (S.D ρ).nc) + k)
  rw [this]
  rfl

/-- The call succeeds on every operator with one basis on either side and one restriction, when a block can have a thread
per node. -/
theorem C71_succeeds (h : OpOK op S) (hp : FullOK op p S) {r : Nat} (hr : activePair op = .ok (r, r)) {a b : ABasis}
    (ha : (asmData p op.inp p.inB op.nin).1 = [a]) (hb : (asmData p op.out p.outB op.nout).1 = [b])
    (hai : Alternating p op.inp p.inB op.nin) (hao : Alternating p op.out p.outB op.nout)
    (hbas : ∀ i < op.nin, (op.inp i).vec = .active → p.inB i ≠ none) {dv : Device} (pb : Bool) {D : Buf α}
    (hD : D.len = op.alen) (hne : 0 < op.ne) (hes : (op.rstrs r).elemSize ≤ dv.maxThreads) :
    ∃ Ln, diagonalDev dv pb op p D = .ok (Ln, r, elemLen op S pb r) := by
  obtain ⟨t, e1, -, -⟩ := diag_dev h hp hr ha hb hai hao hbas dv pb hD
  obtain ⟨m1, _⟩ := pair_made h hp hr
  rw [e1]
  by_cases h0 : 0 < (S.D r).es
  · simp only [if_pos h0]
    unfold runDev
    rw [m1.rep.1.es] at hes
    rw [if_neg (by omega), Res.bind_ok]
    exact ⟨_, rfl⟩
  · simp only [if_neg h0]
    exact ⟨_, rfl⟩

/-- An element with more nodes than a block can have threads is refused. -/
theorem C71_large_rejected (h : OpOK op S) (hp : FullOK op p S) {r : Nat} (hr : activePair op = .ok (r, r)) {a b : ABasis}
    (ha : (asmData p op.inp p.inB op.nin).1 = [a]) (hb : (asmData p op.out p.outB op.nout).1 = [b])
    (hai : Alternating p op.inp p.inB op.nin) (hao : Alternating p op.out p.outB op.nout)
    (hbas : ∀ i < op.nin, (op.inp i).vec = .active → p.inB i ≠ none) {dv : Device} (pb : Bool) {D : Buf α}
    (hD : D.len = op.alen) (hes : dv.maxThreads < (op.rstrs r).elemSize) :
    diagonalDev dv pb op p D = .err .backend := by
  obtain ⟨t, e1, -, -⟩ := diag_dev h hp hr ha hb hai hao hbas dv pb hD
  obtain ⟨m1, _⟩ := pair_made h hp hr
  rw [m1.rep.1.es] at hes
  rw [e1]
  have h0 : 0 < (S.D r).es := by omega
  simp only [if_pos h0]
  unfold runDev
  rw [if_pos (Or.inr hes)]
  rfl

/-- Operators with several bases on one side are refused, before anything is launched. -/
theorem C71_bases_rejected {dv : Device} (pb : Bool) {D : Buf α}
    (hm : (asmData p op.inp p.inB op.nin).1.length ≠ 1 ∨
      (asmData p op.inp p.inB op.nin).1.length = 1 ∧ (asmData p op.out p.outB op.nout).1.length ≠ 1) :
    ∃ c, diagonalDev dv pb op p D = .err c := by
  rcases hm with hm | ⟨h1, hm⟩
  · rcases hx : (asmData p op.inp p.inB op.nin).1 with _ | ⟨a, _ | ⟨b, l⟩⟩
    · exact ⟨_, by unfold diagonalDev oneBasis; rw [hx]; rfl⟩
    · rw [hx] at hm; exact absurd rfl hm
    · exact ⟨_, by unfold diagonalDev oneBasis; rw [hx]; rfl⟩
  · rcases hx : (asmData p op.inp p.inB op.nin).1 with _ | ⟨a, _ | ⟨b, l⟩⟩
    · rw [hx] at h1; cases h1
    · rcases hy : (asmData p op.out p.outB op.nout).1 with _ | ⟨b, _ | ⟨c, l⟩⟩
      · exact ⟨_, by unfold diagonalDev oneBasis; rw [hx, hy]; rfl⟩
      · rw [hy] at hm; exact absurd rfl hm
      · exact ⟨_, by unfold diagonalDev oneBasis; rw [hx, hy]; rfl⟩
    · rw [hx] at h1; simp at h1

end Verif.Gpu
