import Verif.Operator.FullElem

/-!
# Assembly of the matrix: coordinates and values
-/

namespace Verif
namespace Operator

open Finset
open Restriction (RData Made Rep Variant Rstr)
open Basis (EMode)

variable {α : Type} [CommRing α]

set_option linter.unusedSectionVars false

/-! ## Coordinates -/

/-- A restriction without its orientations is the selection. -/
theorem unoriented_rep {r : Rstr} {bs : Nat} {l : Int} {D : RData α} (h : Made .plain r bs l D) :
    ∃ D' : RData Int, Rep r .unoriented D' ∧ D'.ne = D.ne ∧ D'.es = D.es ∧ D'.nc = D.nc ∧ D'.lidx = D.lidx ∧
      ∀ e n m, D'.coef e n m = Restriction.idCoef n m := by
  have fit : ∀ {o : Restriction.Orient} {es : Nat}, o.Fits es .unoriented := by
    intro o es
    cases o with
    | curl c => exact Or.inl rfl
    | none => trivial
    | signs s => trivial
  have co : ∀ (o : Restriction.Orient) (es e n m : Nat),
      (Restriction.orientCoef o .unoriented es : Nat → Nat → Nat → Int) e n m = Restriction.idCoef n m := by
    intro o es e n m
    cases o <;> rfl
  cases h with
  | offset h hf hin => exact ⟨_, (Made.offset h fit hin).rep.1, rfl, rfl, rfl, rfl, fun e n m => co _ _ e n m⟩
  | strided h hin => exact ⟨_, (Made.strided h hin).rep.1, rfl, rfl, rfl, rfl, fun e n m => rfl⟩
  | blocked h hl ho hf hin => exact ⟨_, (Made.blocked h hl ho fit hin).rep.1, rfl, rfl, rfl, rfl, fun e n m => co _ _ e n m⟩
  | blockedStrided h hin => exact ⟨_, (Made.blockedStrided h hin).rep.1, rfl, rfl, rfl, rfl, fun e n m => rfl⟩

theorem row_id {D' : RData Int} (hc : ∀ e n m, D'.coef e n m = Restriction.idCoef n m) (u : Nat → Int) {e k n : Nat}
    (hn : n < D'.es) : D'.row u e k n = u (D'.lidx e n k) := by
  unfold RData.row
  rw [sum_eq_single n]
  · rw [hc]; simp [Restriction.idCoef]
  · intro m _ hne
    rw [hc]; simp [Restriction.idCoef, hne.symm, hne]
  · intro hh; exact absurd (mem_range.2 hn) hh

theorem dofs_ok {r : Rstr} {l : Int} {D : RData α} (h : Made .plain r 1 l D) :
    ∃ v, dofs r l = .ok v ∧ v.len = D.ne * D.es * D.nc ∧ ∀ e < D.ne, ∀ k < D.nc, ∀ n < D.es,
      v.val (n + k * D.es + e * (D.es * D.nc)) = D.lidx e n k := by
  obtain ⟨D', hr, h1, h2, h3, h4, h5⟩ := unoriented_rep h
  obtain ⟨hrep, hb, hl⟩ := h.rep
  have hne : r.numElem.toNat = D.ne := by rw [hrep.ne]; rfl
  have hes : r.elemSize = D.es := hrep.es
  have hnc : r.numComp = D.nc := hrep.nc
  have hnb : r.numBlock = D.ne := by rw [hrep.nb, hb]; simp
  obtain ⟨v', e1, e2, e3, _⟩ := hr.apply_nt (u := ⟨l.toNat, fun i => (i : Int)⟩)
    (v := ⟨r.numElem.toNat * r.elemSize * r.numComp, fun _ => 0⟩) (by rw [hl]; simp only; omega)
    (by rw [hrep.esz, hnb, hb, hne, hes, hnc]; exact le_of_eq (by ring))
  refine ⟨v', e1, by rw [e2, hne, hes, hnc], ?_⟩
  intro e he k hk n hn
  have := e3 e (by rw [h1]; exact he) k (by rw [h3]; exact hk) n (by rw [h2]; exact hn)
  rw [row_id h5 _ (by rw [h2]; exact hn), hb, Restriction.ePos_one, h4, h2, h3] at this
  refine Eq.trans ?_ this
  congr 1
  ring

theorem symbolicSingle_ok {op : Oper α} {p : Prec α} {ri ro : Nat} {off : Nat} {DI DO : RData α}
    (hp : activePair op = .ok (ri, ro)) (hi : Made .plain (op.rstrs ri) 1 p.inSize DI)
    (ho : Made .plain (op.rstrs ro) 1 (if ri = ro then p.inSize else p.outSize) DO) (hne : DO.ne = DI.ne)
    {rc : Buf (Int × Int)} (hl : off + DI.ne * DI.nc * DO.nc * DO.es * DI.es ≤ rc.len) :
    ∃ rc', symbolicSingle op p off rc = .ok rc' ∧ rc'.len = rc.len ∧
      (∀ e < DI.ne, ∀ ci < DI.nc, ∀ co < DO.nc, ∀ i < DO.es, ∀ j < DI.es,
        rc'.val (off + epos DI.nc DO.nc DO.es DI.es e ci co i j) = ((DO.lidx e i co : Int), (DI.lidx e j ci : Int))) ∧
      ∀ x, (x < off ∨ off + DI.ne * DI.nc * DO.nc * DO.es * DI.es ≤ x) → rc'.val x = rc.val x := by
  obtain ⟨din, d1, d2, d3⟩ := dofs_ok hi
  obtain ⟨dout, f1, f2, f3⟩ := dofs_ok ho
  obtain ⟨ii, _⟩ := hi.rep
  obtain ⟨oo, _⟩ := ho.rep
  obtain ⟨v', e1, e2, e3, e4⟩ := storeAll_ok (fun e ci co i j => ((DO.lidx e i co : Int), (DI.lidx e j ci : Int))) hl
  refine ⟨v', ?_, e2, e3, e4⟩
  unfold symbolicSingle
  rw [hp, Res.bind_ok]
  simp only [d1, f1, Res.bind_ok]
  rw [ii.es, ii.nc, oo.es, oo.nc, ii.ne, Int.toNat_natCast]
  have : loop DI.ne (fun e s => loop DI.nc (fun ci s => loop DO.nc (fun co s =>
      loop DO.es (fun i s => loop DI.es (fun j (s : Buf (Int × Int) × Nat) => do
      let row ← dout.rd (i + co * DO.es + e * (DO.es * DO.nc))
      let col ← din.rd (j + ci * DI.es + e * (DI.es * DI.nc))
      let rc ← s.1.wr (off + s.2) (row, col)
      .ok (rc, s.2 + 1)) s) s) s) s) (rc, 0) = .ok (v', DI.ne * DI.nc * DO.nc * DO.es * DI.es) := by
    rw [← e1]
    unfold storeAll
    refine loop_congr (fun e he s => loop_congr (fun ci hci s => loop_congr (fun co hco s => loop_congr (fun i hi s =>
      loop_congr (fun j hj s => ?_)))))
    have b1 : (e * DO.nc + co) * DO.es + i < DO.ne * DO.nc * DO.es := enc_lt (enc_lt (by omega) hco) hi
    have b2 : (e * DI.nc + ci) * DI.es + j < DI.ne * DI.nc * DI.es := enc_lt (enc_lt he hci) hj
    rw [Buf.rd_lt (by rw [f2]; calc _ = (e * DO.nc + co) * DO.es + i := by ring
                        _ < _ := b1
                        _ = _ := by ring), Res.bind_ok,
      Buf.rd_lt (by rw [d2]; calc _ = (e * DI.nc + ci) * DI.es + j := by ring
                        _ < _ := b2
                        _ = _ := by ring), Res.bind_ok, f3 e (by omega) co hco i hi, d3 e he ci hci j hj]
  rw [this, Res.bind_ok, Res.check_true (by simp only; ring), Res.bind_ok]

theorem countEntries_ok {op : Oper α} {ri ro : Nat} {li lo : Int} {DI DO : RData α}
    (hp : activePair op = .ok (ri, ro)) (hi : Made .plain (op.rstrs ri) 1 li DI)
    (ho : Made .plain (op.rstrs ro) 1 lo DO) :
    countEntries op = .ok (DI.ne * DI.nc * DO.nc * DO.es * DI.es) := by
  obtain ⟨ii, _⟩ := hi.rep
  obtain ⟨oo, _⟩ := ho.rep
  unfold countEntries
  rw [hp, Res.bind_ok]
  simp only
  rw [ii.es, ii.nc, oo.es, oo.nc, ii.ne, Int.toNat_natCast]
  congr 1
  ring

/-! ## Values -/

/-- The element matrix, as the sum over the active fields. -/
def elemSum (op : Oper α) (S : Meaning α) (v : Buf α) (e ci co n n' : Nat) : α :=
  ∑ o ∈ range op.nout, if (op.out o).vec = .active then ∑ i ∈ range op.nin, if (op.inp i).vec = .active then
    S.kern op v o i e co n ci n' else 0 else 0

/-- The value at an entry. -/
def entryVal (op : Oper α) (S : Meaning α) (DI DO : RData α) (v : Buf α) (e ci co i j : Nat) : α :=
  ∑ n' ∈ range DI.es, DI.coef e n' j * ∑ n ∈ range DO.es, DO.coef e n i * elemSum op S v e ci co n n'

variable {op : Oper α} {p : Prec α} {S : Meaning α} {a b : ABasis} {ri ro : Nat}

theorem Side.widthIn (h : Side op p S op.inp p.inB S.mIn op.nin a ri) :
    op.cIn = a.modes.length * (S.D ri).nc := by
  rw [h.len, ← h.offset (le_refl _)]; rfl

theorem Side.widthOut (h : Side op p S op.out p.outB S.mOut op.nout b ro) :
    op.cOut = b.modes.length * (S.D ro).nc := by
  rw [h.len, ← h.offset (le_refl _)]; rfl

/-- The assembled QFunction has the entries that are read. -/
theorem qf_in (hi : Side op p S op.inp p.inB S.mIn op.nin a ri) (ho : Side op p S op.out p.outB S.mOut op.nout b ro)
    {D : Buf α} (hD : D.len = op.alen) {e ci co q x y : Nat} (he : e < op.ne) (hci : ci < (S.D ri).nc) (hco : co < (S.D ro).nc)
    (hq : q < op.Q) (hx : x < a.modes.length) (hy : y < b.modes.length) :
    q + (((x * (S.D ri).nc + ci) * b.modes.length + y) * (S.D ro).nc + co) * op.Q + e * (op.Q * (op.cIn * op.cOut)) <
      D.len := by
  have h1 : e * op.cIn + (x * (S.D ri).nc + ci) < op.ne * op.cIn :=
    enc_lt he (by rw [hi.widthIn]; exact enc_lt hx hci)
  have h2 : (e * op.cIn + (x * (S.D ri).nc + ci)) * op.cOut + (y * (S.D ro).nc + co) < op.ne * op.cIn * op.cOut :=
    enc_lt h1 (by rw [ho.widthOut]; exact enc_lt hy hco)
  have h3 := enc_lt h2 hq
  rw [hD]
  unfold Oper.alen
  calc _ = ((e * op.cIn + (x * (S.D ri).nc + ci)) * op.cOut + (y * (S.D ro).nc + co)) * op.Q + q := by
        rw [ho.widthOut]; ring
    _ < _ := h3
    _ = _ := by ring

theorem elem_entry (hi : Side op p S op.inp p.inB S.mIn op.nin a ri) (ho : Side op p S op.out p.outB S.mOut op.nout b ro)
    (tensor : Bool) {D Bin Bout : Buf α} (hD : D.len = op.alen) (h1 : assembledBasis op p a = .ok Bin)
    (h2 : assembledBasis op p b = .ok Bout) {e ci co : Nat} (he : e < op.ne) (hci : ci < (S.D ri).nc)
    (hco : co < (S.D ro).nc) :
    ∃ A m, btd Bout D (S.D ro).es (S.D ri).nc (S.D ro).nc a.modes.length b.modes.length op.Q op.Q (op.cIn * op.cOut) e ci co
        = .ok A ∧ elemMat tensor A Bin (S.D ro).es (S.D ri).es (op.Q * a.modes.length) = .ok m ∧
      m.len = (S.D ro).es * (S.D ri).es ∧ ∀ n < (S.D ro).es, ∀ n' < (S.D ri).es,
        m.val (n * (S.D ri).es + n') = elemSum op S D e ci co n n' := by
  obtain ⟨V, v1, v2, v3⟩ := hi.basis
  obtain ⟨W, w1, w2, w3⟩ := ho.basis
  rw [v1] at h1; cases h1
  rw [w1] at h2; cases h2
  obtain ⟨A, a1, a2, a3⟩ := btd_ok (Bout := Bout) (D := D) (esO := (S.D ro).es) (ncI := (S.D ri).nc) (ncO := (S.D ro).nc)
    (nI := a.modes.length) (nO := b.modes.length) (Q := op.Q) (Qf := op.Q) (sz := op.cIn * op.cOut) (e := e) (ci := ci)
    (co := co) (by rw [w2]; exact le_of_eq (by ring)) (fun q hq x hx y hy => qf_in hi ho hD he hci hco hq hx hy)
  obtain ⟨m, m1, m2, m3⟩ := elemMat_ok tensor (A := A) (B := Bin) (esO := (S.D ro).es) (esI := (S.D ri).es)
    (k := op.Q * a.modes.length) (le_of_eq a2.symm) (by rw [v2]; exact le_of_eq (by ring))
  refine ⟨A, m, a1, m1, m2, ?_⟩
  intro n hn n' hn'
  rw [m3 n hn n' hn', Restriction.sum_range_mul]
  have step : ∀ q ∈ range op.Q, ∀ x ∈ range a.modes.length,
      A.val (n * (op.Q * a.modes.length) + (q * a.modes.length + x)) * Bin.val ((q * a.modes.length + x) * (S.D ri).es + n') =
      ∑ o ∈ range op.nout, if (op.out o).vec = .active then ∑ c ∈ range (op.out o).qc,
        S.bOut op o c q n * D.val (q + (((x * (S.D ri).nc + ci) * b.modes.length +
          (firstMode p op.out p.outB b.bid o + c)) * (S.D ro).nc + co) * op.Q + e * (op.Q * (op.cIn * op.cOut))) *
          Bin.val ((q * a.modes.length + x) * (S.D ri).es + n') else 0 := by
    intro q hq x hx
    rw [mem_range] at hq hx
    rw [a3 n hn q hq x hx, sum_mul, ho.sum]
    refine sum_congr rfl (fun o hoo => ?_)
    rw [mem_range] at hoo
    by_cases hao : (op.out o).vec = .active
    · rw [if_pos hao, if_pos hao]
      refine sum_congr rfl (fun c hc => ?_)
      rw [w3 o hoo hao c (mem_range.1 hc) q hq n hn]
      congr 2
    · rw [if_neg hao, if_neg hao]
  rw [sum_congr rfl (fun q hq => sum_congr rfl (step q hq))]
  unfold elemSum
  -- move the sum over the outputs outside
  rw [(sum_congr rfl (fun q _ => sum_comm)).trans sum_comm]
  refine sum_congr rfl (fun o hoo => ?_)
  rw [mem_range] at hoo
  by_cases hao : (op.out o).vec = .active
  · simp only [if_pos hao]
    rw [sum_congr rfl (fun q _ => hi.sum (fun x => ∑ c ∈ range (op.out o).qc,
        S.bOut op o c q n * D.val (q + (((x * (S.D ri).nc + ci) * b.modes.length +
          (firstMode p op.out p.outB b.bid o + c)) * (S.D ro).nc + co) * op.Q + e * (op.Q * (op.cIn * op.cOut))) *
          Bin.val ((q * a.modes.length + x) * (S.D ri).es + n'))), sum_comm]
    refine sum_congr rfl (fun i hii => ?_)
    rw [mem_range] at hii
    by_cases hai : (op.inp i).vec = .active
    · simp only [if_pos hai]
      unfold Meaning.kern
      rw [(sum_congr rfl (fun q _ => sum_comm)).trans sum_comm]
      refine sum_congr rfl (fun c hc => ?_)
      rw [sum_comm]
      refine sum_congr rfl (fun d hd => sum_congr rfl (fun q hq => ?_))
      rw [mem_range] at hc hd hq
      rw [v3 i hii hai d hd q hq n' hn', hi.dat hii hai, ho.dat hoo hao]
      congr 1
      congr 2
      unfold Oper.apos
      rw [hi.offset (le_of_lt hii), ho.offset (le_of_lt hoo), ho.widthOut]
      ring
    · simp only [if_neg hai, sum_const_zero]
  · simp only [if_neg hao, sum_const_zero]

theorem fillVals_ok (hi : Side op p S op.inp p.inB S.mIn op.nin a ri) (ho : Side op p S op.out p.outB S.mOut op.nout b ro)
    (tensor : Bool) {D Bin Bout : Buf α} (hD : D.len = op.alen) (h1 : assembledBasis op p a = .ok Bin)
    (h2 : assembledBasis op p b = .ok Bout) {off : Nat} {v : Buf α}
    (hl : off + op.ne * (S.D ri).nc * (S.D ro).nc * (S.D ro).es * (S.D ri).es ≤ v.len) :
    ∃ v', fillVals tensor (op.rstrs ri) (op.rstrs ro) Bin Bout D a.modes.length b.modes.length op.Q op.Q (op.cIn * op.cOut) off
        v = .ok v' ∧ v'.len = v.len ∧
      (∀ e < op.ne, ∀ ci < (S.D ri).nc, ∀ co < (S.D ro).nc, ∀ i < (S.D ro).es, ∀ j < (S.D ri).es,
        v'.val (off + epos (S.D ri).nc (S.D ro).nc (S.D ro).es (S.D ri).es e ci co i j) =
          entryVal op S (S.D ri) (S.D ro) D e ci co i j) ∧
      ∀ x, (x < off ∨ off + op.ne * (S.D ri).nc * (S.D ro).nc * (S.D ro).es * (S.D ri).es ≤ x) → v'.val x = v.val x := by
  obtain ⟨li, mi⟩ := hi.made
  obtain ⟨lo, mo⟩ := ho.made
  obtain ⟨ii, ib, _⟩ := mi.rep
  obtain ⟨oo, ob, _⟩ := mo.rep
  obtain ⟨v', e1, e2, e3, e4⟩ := storeAll_ok (entryVal op S (S.D ri) (S.D ro) D) hl
  refine ⟨v', ?_, e2, e3, e4⟩
  unfold fillVals
  rw [ii.es, ii.nc, oo.es, oo.nc, ii.ne, Int.toNat_natCast, hi.ne]
  have : loop op.ne (fun e s => loop (S.D ri).nc (fun ci s => loop (S.D ro).nc (fun co s => do
      let A ← btd Bout D (S.D ro).es (S.D ri).nc (S.D ro).nc a.modes.length b.modes.length op.Q op.Q (op.cIn * op.cOut) e ci co
      let m ← elemMat tensor A Bin (S.D ro).es (S.D ri).es (op.Q * a.modes.length)
      let m ← orientRows (op.rstrs ro) e (S.D ro).es (S.D ri).es m
      let m ← orientCols (op.rstrs ri) e (S.D ro).es (S.D ri).es m
      loop (S.D ro).es (fun i s => loop (S.D ri).es (fun j (s : Buf α × Nat) => do
        let x ← m.rd (i * (S.D ri).es + j)
        let v ← s.1.wr (off + s.2) x
        .ok (v, s.2 + 1)) s) s) s) s) (v, 0) =
      .ok (v', op.ne * (S.D ri).nc * (S.D ro).nc * (S.D ro).es * (S.D ri).es) := by
    rw [← e1]
    unfold storeAll
    refine loop_congr (fun e he s => loop_congr (fun ci hci s => loop_congr (fun co hco s => ?_)))
    obtain ⟨A, m, a1, m1, m2, m3⟩ := elem_entry hi ho tensor hD h1 h2 he hci hco
    obtain ⟨m', n1, n2, n3⟩ := orientRows_ok oo ob (e := e) (by rw [ho.ne]; exact he) m2
    obtain ⟨m'', l1, l2, l3⟩ := orientCols_ok ii ib (e := e) (by rw [hi.ne]; exact he) n2
    rw [a1, Res.bind_ok, m1, Res.bind_ok, n1, Res.bind_ok, l1, Res.bind_ok]
    refine loop_congr (fun i hi' s => loop_congr (fun j hj s => ?_))
    rw [Buf.rd_lt (by rw [l2]; exact enc_lt hi' hj), Res.bind_ok, l3 i hi' j hj]
    have : ∑ n' ∈ range (S.D ri).es, (S.D ri).coef e n' j * m'.val (i * (S.D ri).es + n') =
        entryVal op S (S.D ri) (S.D ro) D e ci co i j := by
      unfold entryVal
      refine sum_congr rfl (fun n' hn' => ?_)
      rw [n3 i hi' n' (mem_range.1 hn')]
      congr 1
      refine sum_congr rfl (fun n hn => ?_)
      rw [m3 n (mem_range.1 hn) n' (mem_range.1 hn')]
    rw [this]
  rw [this, Res.bind_ok, Res.check_true (by simp only; ring), Res.bind_ok]

/-! ## The matrix -/

/-- The triples of the elements add up to the matrix. -/
theorem sum_entries (hi : Side op p S op.inp p.inB S.mIn op.nin a ri) (ho : Side op p S op.out p.outB S.mOut op.nout b ro)
    (v : Buf α) (t c : Nat) :
    ∑ e ∈ range op.ne, ∑ ci ∈ range (S.D ri).nc, ∑ co ∈ range (S.D ro).nc, ∑ i ∈ range (S.D ro).es,
      ∑ j ∈ range (S.D ri).es, (if (((S.D ro).lidx e i co : Int), ((S.D ri).lidx e j ci : Int)) = ((t : Int), (c : Int)) then
        entryVal op S (S.D ri) (S.D ro) v e ci co i j else 0) = S.form op v (fun x => if x = c then 1 else 0) t := by
  rw [form_pairs]
  -- the right-hand side with the common restrictions
  have hR : (∑ o ∈ range op.nout, if (op.out o).vec = .active then ∑ i ∈ range op.nin,
      if (op.inp i).vec = .active then
        ∑ e ∈ range op.ne, ∑ k ∈ range (S.dat (op.out o)).nc, ∑ n ∈ range (S.dat (op.out o)).es,
          ∑ m ∈ range (S.dat (op.out o)).es, if (S.dat (op.out o)).lidx e m k = t then (S.dat (op.out o)).coef e n m *
            ∑ k' ∈ range (S.dat (op.inp i)).nc, ∑ n' ∈ range (S.dat (op.inp i)).es,
              S.kern op v o i e k n k' n' * (S.dat (op.inp i)).row (fun x => if x = c then 1 else 0) e k' n' else 0
      else 0 else 0) =
      ∑ o ∈ range op.nout, ∑ i ∈ range op.nin, ∑ e ∈ range op.ne, ∑ k ∈ range (S.D ro).nc, ∑ n ∈ range (S.D ro).es,
          ∑ m ∈ range (S.D ro).es, if (S.D ro).lidx e m k = t then (S.D ro).coef e n m *
            ∑ k' ∈ range (S.D ri).nc, ∑ n' ∈ range (S.D ri).es,
              (if (op.out o).vec = .active then if (op.inp i).vec = .active then S.kern op v o i e k n k' n' else 0 else 0) *
                (S.D ri).row (fun x => if x = c then 1 else 0) e k' n' else 0 := by
    refine sum_congr rfl (fun o hoo => ?_)
    by_cases hao : (op.out o).vec = .active
    · simp only [if_pos hao]
      refine sum_congr rfl (fun i hii => ?_)
      by_cases hai : (op.inp i).vec = .active
      · simp only [if_pos hai]
        rw [hi.dat (mem_range.1 hii) hai, ho.dat (mem_range.1 hoo) hao]
      · simp only [if_neg hai, zero_mul, sum_const_zero, mul_zero, ite_self]
    · simp only [if_neg hao, zero_mul, sum_const_zero, mul_zero, ite_self]
  rw [hR]
  -- the sum over the fields inside
  have hC : ∑ o ∈ range op.nout, ∑ i ∈ range op.nin, ∑ e ∈ range op.ne, ∑ k ∈ range (S.D ro).nc, ∑ n ∈ range (S.D ro).es,
          ∑ m ∈ range (S.D ro).es, (if (S.D ro).lidx e m k = t then (S.D ro).coef e n m *
            ∑ k' ∈ range (S.D ri).nc, ∑ n' ∈ range (S.D ri).es,
              (if (op.out o).vec = .active then if (op.inp i).vec = .active then S.kern op v o i e k n k' n' else 0 else 0) *
                (S.D ri).row (fun x => if x = c then 1 else 0) e k' n' else 0) =
      ∑ e ∈ range op.ne, ∑ k ∈ range (S.D ro).nc, ∑ n ∈ range (S.D ro).es,
          ∑ m ∈ range (S.D ro).es, if (S.D ro).lidx e m k = t then (S.D ro).coef e n m *
            ∑ k' ∈ range (S.D ri).nc, ∑ n' ∈ range (S.D ri).es, elemSum op S v e k' k n n' *
                (S.D ri).row (fun x => if x = c then 1 else 0) e k' n' else 0 := by
    have push : ∀ (F : Nat → Nat → Nat → Nat → Nat → Nat → α) (A B C E : Nat),
        ∑ o ∈ range op.nout, ∑ i ∈ range op.nin, ∑ e ∈ range A, ∑ k ∈ range B, ∑ n ∈ range C, ∑ m ∈ range E, F o i e k n m =
        ∑ e ∈ range A, ∑ k ∈ range B, ∑ n ∈ range C, ∑ m ∈ range E, ∑ o ∈ range op.nout, ∑ i ∈ range op.nin,
          F o i e k n m := by
      intro F A B C E
      rw [sum_congr rfl (fun o _ => sum_comm), sum_comm]
      refine sum_congr rfl (fun e _ => ?_)
      rw [sum_congr rfl (fun o _ => sum_comm), sum_comm]
      refine sum_congr rfl (fun k _ => ?_)
      rw [sum_congr rfl (fun o _ => sum_comm), sum_comm]
      refine sum_congr rfl (fun n _ => ?_)
      rw [sum_congr rfl (fun o _ => sum_comm), sum_comm]
    rw [push]
    refine sum_congr rfl (fun e _ => sum_congr rfl (fun k _ => sum_congr rfl (fun n _ => sum_congr rfl (fun m _ => ?_))))
    by_cases ht : (S.D ro).lidx e m k = t
    · simp only [if_pos ht]
      simp only [← mul_sum]
      congr 1
      rw [sum_congr rfl (fun o _ => sum_comm), sum_comm]
      refine sum_congr rfl (fun k' _ => ?_)
      rw [sum_congr rfl (fun o _ => sum_comm), sum_comm]
      refine sum_congr rfl (fun n' _ => ?_)
      unfold elemSum
      rw [sum_mul]
      refine sum_congr rfl (fun o _ => ?_)
      rw [← sum_mul]
      congr 1
      by_cases hao : (op.out o).vec = .active
      · simp only [if_pos hao]
      · simp only [if_neg hao, sum_const_zero]
    · simp only [if_neg ht, sum_const_zero]
  rw [hC]
  refine sum_congr rfl (fun e _ => ?_)
  rw [sum_comm]
  refine sum_congr rfl (fun co _ => ?_)
  -- for one element and one component of the output
  rw [sum_comm]
  rw [show (∑ n ∈ range (S.D ro).es, ∑ m ∈ range (S.D ro).es, if (S.D ro).lidx e m co = t then (S.D ro).coef e n m *
            ∑ k' ∈ range (S.D ri).nc, ∑ n' ∈ range (S.D ri).es, elemSum op S v e k' co n n' *
                (S.D ri).row (fun x => if x = c then 1 else 0) e k' n' else 0) = ∑ m ∈ range (S.D ro).es,
        ∑ n ∈ range (S.D ro).es, if (S.D ro).lidx e m co = t then (S.D ro).coef e n m *
            ∑ k' ∈ range (S.D ri).nc, ∑ n' ∈ range (S.D ri).es, elemSum op S v e k' co n n' *
                (S.D ri).row (fun x => if x = c then 1 else 0) e k' n' else 0 from sum_comm]
  refine sum_congr rfl (fun i _ => ?_)
  by_cases ht : (S.D ro).lidx e i co = t
  · simp only [if_pos ht]
    simp only [mul_sum]
    refine Eq.trans ?_ sum_comm
    refine sum_congr rfl (fun ci _ => ?_)
    unfold entryVal RData.row
    have h1 : ∀ j, (if (((S.D ro).lidx e i co : Int), ((S.D ri).lidx e j ci : Int)) = ((t : Int), (c : Int)) then
        ∑ n' ∈ range (S.D ri).es, (S.D ri).coef e n' j * ∑ n ∈ range (S.D ro).es,
          (S.D ro).coef e n i * elemSum op S v e ci co n n' else 0) =
        ∑ n ∈ range (S.D ro).es, ∑ n' ∈ range (S.D ri).es, (S.D ro).coef e n i * (elemSum op S v e ci co n n' *
          ((S.D ri).coef e n' j * if (S.D ri).lidx e j ci = c then 1 else 0)) := by
      intro j
      by_cases hc : (S.D ri).lidx e j ci = c
      · rw [if_pos (by rw [ht, hc]), sum_comm]
        refine sum_congr rfl (fun n' _ => ?_)
        rw [mul_sum]
        refine sum_congr rfl (fun n _ => ?_)
        rw [if_pos hc]; ring
      · rw [if_neg (by simp only [Prod.mk.injEq, Nat.cast_inj]; exact fun hh => hc hh.2)]
        simp only [if_neg hc, mul_zero, sum_const_zero]
    rw [sum_congr rfl (fun j _ => h1 j), sum_comm]
    refine sum_congr rfl (fun n _ => ?_)
    rw [sum_comm]
    refine sum_congr rfl (fun n' _ => ?_)
    rw [mul_sum, mul_sum]
  · simp only [if_neg ht, sum_const_zero]
    refine sum_eq_zero (fun ci _ => sum_eq_zero (fun j _ => ?_))
    rw [if_neg (by simp only [Prod.mk.injEq, Nat.cast_inj]; exact fun hh => ht hh.1)]

end Operator
end Verif
