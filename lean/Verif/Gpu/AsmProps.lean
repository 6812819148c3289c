import Verif.Gpu.AsmCurl
import Verif.Gpu.AsmSpec
import Verif.Gpu.BasisApply
import Verif.Operator.FullProps

/-!
# C70: assembly of the matrix on a device
-/

set_option linter.unusedSectionVars false

namespace Verif.Gpu
open Finset
open Verif.Basis (EMode)
open Verif.Operator
open Verif.Restriction (RData Made Rep Rstr)

variable {α : Type} [CommRing α] {op : Oper α} {p : Prec α} {S : Meaning α}

/-! ## The packed matrices of the modes -/

/-- One mode. -/
def packBody (p : Prec α) (a : ABasis) (P Q : Nat) (l : List (EMode × Nat × Nat)) (e : Nat) (v : Buf α) : Res (Buf α) :=
  match l[e]? with
  | none => .ub
  | some m => do
    let B ← basisPtr p a.bid m.1 (ident P Q)
    loop (P * Q) (fun x v => do
      let y ← B.rd (m.2.2 * P * Q + x)
      v.wr (e * P * Q + x) y) v

theorem pack_ok {f : Nat → OField α} {ids : Nat → Option Nat} {ms : Nat → Buf α} {n r : Nat} {a : ABasis}
    (h : Side op p S f ids ms n a r) {V : Buf α} (hV : ∀ i < n, (f i).vec = .active → ∀ d < (f i).qc, ∀ q < op.Q,
      ∀ m < (S.D r).es, V.val ((q * a.modes.length + (firstMode p f ids a.bid i + d)) * (S.D r).es + m) =
        S.bF op (f i) (ms i) d q m) :
    ∃ W, packModes p a (S.D r).es op.Q = .ok W ∧ W.len = a.modes.length * op.Q * (S.D r).es ∧
      ∀ e < a.modes.length, ∀ q < op.Q, ∀ m < (S.D r).es,
        W.val (e * op.Q * (S.D r).es + q * (S.D r).es + m) = V.val ((q * a.modes.length + e) * (S.D r).es + m) := by
  have hlen : (dirs (p.qComp a.bid) none 0 a.modes).length = a.modes.length := dirs_length _ _ _ _
  have hPQ : ∀ e, e * (S.D r).es * op.Q = e * op.Q * (S.D r).es := fun e => by ring
  have hs : ∀ e < a.modes.length, Sets (packBody p a (S.D r).es op.Q (dirs (p.qComp a.bid) none 0 a.modes) e)
      ((S.D r).es * op.Q * a.modes.length) (fun j => ∃ x < (S.D r).es * op.Q, j = e * ((S.D r).es * op.Q) + x)
      (fun x => V.val ((x % ((S.D r).es * op.Q) / (S.D r).es * a.modes.length +
          x / ((S.D r).es * op.Q)) * (S.D r).es + x % ((S.D r).es * op.Q) % (S.D r).es)) := by
    intro e he v hv
    have he' := he
    rw [h.len] at he'
    obtain ⟨i, hi, ha, hid, d, hd, rfl⟩ := firstMode_surj he'
    have ff := (h.fields i hi ha).2.2
    have e1 := dirModes_get (p := p) (bid := a.bid) hi ha (h.fields i hi ha).1 hd
    rw [ff.qc] at hd
    have e2 := congrArg (·[firstMode p f ids a.bid i + d]?) h.modes
    simp only [List.getElem?_map, e1, Option.map_some] at e2
    obtain ⟨o, ho⟩ : ∃ o, (dirs (p.qComp a.bid) none 0 a.modes)[firstMode p f ids a.bid i + d]? =
        some ((f i).mode, o, d) := by
      rcases hx : (dirs (p.qComp a.bid) none 0 a.modes)[firstMode p f ids a.bid i + d]? with _ | x
      · rw [hx] at e2; simp at e2
      · rw [hx] at e2
        simp only [Option.map_some, Option.some.injEq, Prod.mk.injEq] at e2
        obtain ⟨x1, x2, x3⟩ := x
        obtain ⟨rfl, rfl⟩ := e2
        exact ⟨x2, rfl⟩
    obtain ⟨B, b1, b2, b3⟩ := ff.ptr
    rw [h.dat hi ha] at b1 b2 b3
    unfold packBody
    simp only [ho, b1, Res.bind_ok]
    refine Sets.loop (L := (S.D r).es * op.Q * a.modes.length) (fun x hx v hv => ?_) v hv
    have hx' : x < op.Q * (S.D r).es := by rw [Nat.mul_comm]; exact hx
    obtain ⟨hq, hm⟩ := dec_lt hx'
    have hB : d * (S.D r).es * op.Q + x < B.len := by
      have h1 : d * (op.Q * (S.D r).es) + x < (f i).qc * (op.Q * (S.D r).es) := enc_lt hd hx'
      rw [hPQ, Nat.mul_assoc]
      rw [Nat.mul_assoc] at b2
      omega
    rw [Buf.rd_lt hB, Res.bind_ok]
    have hval : B.val (d * (S.D r).es * op.Q + x) = S.bF op (f i) (ms i) d (x / (S.D r).es) (x % (S.D r).es) := by
      rw [← b3 d _ _ hq hm hd, dec_eq, hPQ]
    rw [hval]
    have hpos : (firstMode p f ids a.bid i + d) * (S.D r).es * op.Q + x =
        (firstMode p f ids a.bid i + d) * ((S.D r).es * op.Q) + x := by ring
    rw [hpos]
    refine Sets.wr ?_ ?_ v hv
    · rw [Nat.mul_comm _ a.modes.length]
      exact enc_lt he hx
    · rw [div_enc hx, mod_enc hx, hV i hi ha d hd _ hq _ hm]
  obtain ⟨W, e1, e2, e3, _⟩ := Sets.loop hs ⟨(S.D r).es * op.Q * a.modes.length, fun _ => 0⟩ rfl
  refine ⟨W, ?_, by rw [e2]; ring, fun e he q hq m hm => ?_⟩
  · rw [← e1, ← hlen]
    rfl
  · have hx : q * (S.D r).es + m < (S.D r).es * op.Q := by
      rw [Nat.mul_comm (S.D r).es]
      exact enc_lt hq hm
    have hp : e * op.Q * (S.D r).es + q * (S.D r).es + m = e * ((S.D r).es * op.Q) + (q * (S.D r).es + m) := by ring
    rw [hp, e3 _ ⟨e, he, _, hx, rfl⟩]
    simp only [div_enc hx, mod_enc hx, div_enc hm, mod_enc hm]

/-! ## The assembled QFunction in the layout of the host -/

/-- The same entries, in the order of the host. -/
def hostOf (op : Oper α) (D : Buf α) : Buf α :=
  ⟨op.alen, fun x =>
    D.val (((x / op.Q / op.cOut % op.cIn * op.cOut + x / op.Q % op.cOut) * op.ne + x / op.Q / op.cOut / op.cIn) * op.Q +
      x % op.Q)⟩

theorem hostOf_val (D : Buf α) {e c d q : Nat} (hc : c < op.cIn) (hd : d < op.cOut) (hq : q < op.Q) :
    (hostOf op D).val (((e * op.cIn + c) * op.cOut + d) * op.Q + q) = D.val (((c * op.cOut + d) * op.ne + e) * op.Q + q) := by
  unfold hostOf
  simp only [div_enc hq, mod_enc hq, div_enc hd, mod_enc hd, div_enc hc, mod_enc hc]

theorem ColumnsDev.host {L : Nat → Nat → α} {D : Buf α} (h : ColumnsDev op S L D) : Columns op S L (hostOf op D) := by
  refine ⟨rfl, fun e he i hi ha c hc o ho hao d hd q hq => ?_⟩
  unfold Oper.apos
  rw [hostOf_val D (offset_add_lt _ hi ha hc) (offset_add_lt _ ho hao hd) hq]
  exact h.2 e he i hi ha c hc o ho hao d hd q hq

/-! ## The sums -/

section
variable {a b : ABasis} {ri ro : Nat}

theorem sum_elem (hi : Side op p S op.inp p.inB S.mIn op.nin a ri) (ho : Side op p S op.out p.outB S.mOut op.nout b ro)
    {V W v : Buf α}
    (hV : ∀ i < op.nin, (op.inp i).vec = .active → ∀ d < (op.inp i).qc, ∀ q < op.Q,
      ∀ m < (S.D ri).es, V.val ((q * a.modes.length + (firstMode p op.inp p.inB a.bid i + d)) * (S.D ri).es + m) =
        S.bF op (op.inp i) (S.mIn i) d q m)
    (hW : ∀ i < op.nout, (op.out i).vec = .active → ∀ d < (op.out i).qc, ∀ q < op.Q,
      ∀ m < (S.D ro).es, W.val ((q * b.modes.length + (firstMode p op.out p.outB b.bid i + d)) * (S.D ro).es + m) =
        S.bF op (op.out i) (S.mOut i) d q m)
    {e ci co n n' : Nat} (hn : n < (S.D ro).es) (hn' : n' < (S.D ri).es) :
    ∑ x ∈ range a.modes.length, ∑ y ∈ range b.modes.length, ∑ q ∈ range op.Q,
      W.val ((q * b.modes.length + y) * (S.D ro).es + n) *
        v.val (((e * op.cIn + (x * (S.D ri).nc + ci)) * op.cOut + (y * (S.D ro).nc + co)) * op.Q + q) *
        V.val ((q * a.modes.length + x) * (S.D ri).es + n') = elemSum op S v e ci co n n' := by
  rw [sum_congr rfl (fun x _ => ho.sum (fun y => ∑ q ∈ range op.Q,
      W.val ((q * b.modes.length + y) * (S.D ro).es + n) *
        v.val (((e * op.cIn + (x * (S.D ri).nc + ci)) * op.cOut + (y * (S.D ro).nc + co)) * op.Q + q) *
        V.val ((q * a.modes.length + x) * (S.D ri).es + n'))), sum_comm]
  unfold elemSum
  refine sum_congr rfl (fun o hoo => ?_)
  rw [mem_range] at hoo
  by_cases hao : (op.out o).vec = .active
  · simp only [if_pos hao]
    rw [hi.sum]
    refine sum_congr rfl (fun i hii => ?_)
    rw [mem_range] at hii
    by_cases hai : (op.inp i).vec = .active
    · simp only [if_pos hai]
      unfold Meaning.kern
      rw [sum_comm]
      refine sum_congr rfl (fun c hc => sum_congr rfl (fun d hd => sum_congr rfl (fun q hq => ?_)))
      rw [mem_range] at hc hd hq
      rw [hV i hii hai d hd q hq n' hn', hW o hoo hao c hc q hq n hn, hi.dat hii hai, ho.dat hoo hao]
      unfold Oper.apos
      rw [hi.offset (le_of_lt hii), ho.offset (le_of_lt hoo)]
      have e1 : (firstMode p op.inp p.inB a.bid i + d) * (S.D ri).nc + ci =
        firstMode p op.inp p.inB a.bid i * (S.D ri).nc + (d * (S.D ri).nc + ci) := by ring
      have e2 : (firstMode p op.out p.outB b.bid o + c) * (S.D ro).nc + co =
        firstMode p op.out p.outB b.bid o * (S.D ro).nc + (c * (S.D ro).nc + co) := by ring
      rw [e1, e2]
      rfl
    · simp only [if_neg hai]
  · simp only [if_neg hao, sum_const_zero]

/-- What the loops of the kernel sum up is the element matrix. -/
theorem asmVal_elem (hi : Side op p S op.inp p.inB S.mIn op.nin a ri) (ho : Side op p S op.out p.outB S.mOut op.nout b ro)
    {V W V' W' D : Buf α} {s : Vals α} {k : AsmK}
    (hV : ∀ i < op.nin, (op.inp i).vec = .active → ∀ d < (op.inp i).qc, ∀ q < op.Q,
      ∀ m < (S.D ri).es, V.val ((q * a.modes.length + (firstMode p op.inp p.inB a.bid i + d)) * (S.D ri).es + m) =
        S.bF op (op.inp i) (S.mIn i) d q m)
    (hW : ∀ i < op.nout, (op.out i).vec = .active → ∀ d < (op.out i).qc, ∀ q < op.Q,
      ∀ m < (S.D ro).es, W.val ((q * b.modes.length + (firstMode p op.out p.outB b.bid i + d)) * (S.D ro).es + m) =
        S.bF op (op.out i) (S.mOut i) d q m)
    (hV' : ∀ e < a.modes.length, ∀ q < op.Q, ∀ m < (S.D ri).es,
        V'.val (e * op.Q * (S.D ri).es + q * (S.D ri).es + m) = V.val ((q * a.modes.length + e) * (S.D ri).es + m))
    (hW' : ∀ e < b.modes.length, ∀ q < op.Q, ∀ m < (S.D ro).es,
        W'.val (e * op.Q * (S.D ro).es + q * (S.D ro).es + m) = W.val ((q * b.modes.length + e) * (S.D ro).es + m))
    (s0 : s (.table 0) = V'.val) (s1 : s (.table 1) = W'.val) (su : s .u = D.val)
    (hk : k.eI = a.modes.length ∧ k.eO = b.modes.length ∧ k.ncI = (S.D ri).nc ∧ k.ncO = (S.D ro).nc ∧
      k.nI = (S.D ri).es ∧ k.nO = (S.D ro).es ∧ k.Q = op.Q ∧ k.ne = op.ne)
    {e ci co n n' : Nat} (hci : ci < (S.D ri).nc) (hco : co < (S.D ro).nc)
    (hn : n < (S.D ro).es) (hn' : n' < (S.D ri).es) :
    asmVal k s e ci co n n' = elemSum op S (hostOf op D) e ci co n n' := by
  obtain ⟨k1, k2, k3, k4, k5, k6, k7, k8⟩ := hk
  rw [← sum_elem hi ho hV hW hn hn']
  unfold asmVal
  rw [k1, k2, k7, s0, s1, su, k5, k6]
  refine sum_congr rfl (fun x hx => sum_congr rfl (fun y hy => sum_congr rfl (fun q hq => ?_)))
  rw [mem_range] at hx hy hq
  rw [hV' x hx q hq n' hn', hW' y hy q hq n hn, hostOf_val D (by rw [hi.widthIn]; exact enc_lt hx hci)
    (by rw [ho.widthOut]; exact enc_lt hy hco) hq, qfPos_eq, k2, k3, k4, k7, k8, ho.widthOut]
  congr 3
  ring

/-! ## Orientations -/

theorem elem_sign {r : Rstr} {D : RData α} (h : Rep r .plain D) (hb : r.blockSize = 1) (hc : r.rtype ≠ .curlOriented)
    {e m : Nat} (he : e < D.ne) (hm : m < D.es) (f : Nat → α) :
    ∑ n ∈ range D.es, D.coef e n m * f n = f m * sgn (orientsOf r).1 (D.es * e + m) := by
  rw [coef_col h hb he hm f]
  unfold orientsOf sgn
  rcases hr : r.rtype with _ | _ | _ | _ | _ <;> simp_all [Nat.mul_comm]

theorem elem_curl {r : Rstr} {D : RData α} (h : Rep r .plain D) (hb : r.blockSize = 1) (hc : r.rtype = .curlOriented)
    {e m : Nat} (he : e < D.ne) (hm : m < D.es) (f : Nat → α) :
    ∑ n ∈ range D.es, D.coef e n m * f n = curlVal r.curlOrients D.es e m f := by
  rw [coef_col h hb he hm f, hc]
  simp only
  unfold curlVal
  have e1 : ∀ x, e * 3 * D.es + x = 3 * D.es * e + x := fun x => by ring
  simp only [e1]
  by_cases h0 : 0 < m
  · rw [if_pos h0, if_pos h0, Nat.add_sub_assoc (by omega)]
    rw [Nat.add_assoc, Nat.add_assoc (3 * D.es * e)]
    ring
  · rw [if_neg h0, if_neg h0]
    rw [Nat.add_assoc, Nat.add_assoc (3 * D.es * e)]
    ring

theorem orients_curl {r : Rstr} : (orientsOf r).2 = if r.rtype = .curlOriented then some r.curlOrients else none := by
  unfold orientsOf
  rcases r.rtype with _ | _ | _ | _ | _ <;> simp

theorem orients_plain {r : Rstr} (hc : r.rtype = .curlOriented) : (orientsOf r).1 = none := by
  unfold orientsOf
  rw [hc]

end

/-! ## The launch -/

/-- The kernel of an operator with active restrictions `ri` and `ro` and the modes of `a` and `b`. -/
def kOf (op : Oper α) (S : Meaning α) (dv : Device) (ri ro : Nat) (a b : ABasis) : AsmK :=
  ⟨a.modes.length, b.modes.length, (S.D ri).nc, (S.D ro).nc, (S.D ri).es, (S.D ro).es, op.Q,
    blockY dv (S.D ri).es (S.D ro).es, op.ne⟩

def oOf (op : Oper α) (ri ro : Nat) : AsmO :=
  ⟨(orientsOf (op.rstrs ri)).1, (orientsOf (op.rstrs ri)).2, (orientsOf (op.rstrs ro)).1, (orientsOf (op.rstrs ro)).2⟩

def shOf (op : Oper α) (S : Meaning α) (dv : Device) (ri ro : Nat) : Nat :=
  (if (orientsOf (op.rstrs ri)).2.isSome ∨ (orientsOf (op.rstrs ro)).2.isSome then (S.D ri).es * (S.D ro).es else 0) +
    (if (orientsOf (op.rstrs ri)).2.isSome then (S.D ri).es * blockY dv (S.D ri).es (S.D ro).es else 0)

/-- The call, for operators with one basis on either side. -/
theorem dev_run (h : OpOK op S) (hp : FullOK op p S) {ri ro : Nat} (hr : activePair op = .ok (ri, ro)) {a b : ABasis}
    (ha : (asmData p op.inp p.inB op.nin).1 = [a]) (hb : (asmData p op.out p.outB op.nout).1 = [b]) (dv : Device)
    (junk : Vals α) (D : Buf α) (off : Nat) (v : Buf α) :
    ∃ V W, (V.len = a.modes.length * op.Q * (S.D ri).es ∧ W.len = b.modes.length * op.Q * (S.D ro).es) ∧
      (∀ (s : Vals α) (k : AsmK), s (.table 0) = V.val → s (.table 1) = W.val → s .u = D.val → k = kOf op S dv ri ro a b →
        ∀ e, ∀ ci < (S.D ri).nc, ∀ co < (S.D ro).nc, ∀ n < (S.D ro).es, ∀ n' < (S.D ri).es,
          asmVal k s e ci co n n' = elemSum op S (hostOf op D) e ci co n n') ∧
      assembleDev dv junk op p D off v = (do
        Res.check (0 < a.modes.length ∧ 0 < b.modes.length) .unsupported
        runDev dv op.ne ((S.D ri).es * blockY dv (S.D ri).es (S.D ro).es)
          (asmKernel (kOf op S dv ri ro a b) (oOf op ri ro) off op.ne) (memAsm (shOf op S dv ri ro) junk V W D v)) := by
  obtain ⟨si, so⟩ := sides h hp hr ha hb
  obtain ⟨V, _, _, v3⟩ := si.basis
  obtain ⟨W, _, _, w3⟩ := so.basis
  obtain ⟨V', p1, p2, p3⟩ := pack_ok si v3
  obtain ⟨W', r1, r2, r3⟩ := pack_ok so w3
  obtain ⟨m1, m2, _, n1, _⟩ := pair_made h hp hr
  have q1 : fullQ p a.bid (S.D ri).es = op.Q := by
    obtain ⟨i, hi, hai⟩ := si.ex
    have := (si.fields i hi hai).2.2.Q
    rwa [si.dat hi hai] at this
  have q2 : fullQ p b.bid (S.D ro).es = op.Q := by
    obtain ⟨i, hi, hai⟩ := so.ex
    have := (so.fields i hi hai).2.2.Q
    rwa [so.dat hi hai] at this
  have hne : (op.rstrs ri).numElem.toNat = op.ne := by rw [m1.rep.1.ne, n1]; rfl
  refine ⟨V', W', ⟨p2, r2⟩, ?_, ?_⟩
  · rintro s k s0 s1 su rfl e ci hci co hco n hn n' hn'
    exact asmVal_elem si so v3 w3 p3 r3 s0 s1 su ⟨rfl, rfl, rfl, rfl, rfl, rfl, rfl, rfl⟩ hci hco hn hn'
  · have o1 : oneBasis p op.inp p.inB op.nin = .ok a := by unfold oneBasis; rw [ha]
    have o2 : oneBasis p op.out p.outB op.nout = .ok b := by unfold oneBasis; rw [hb]
    unfold assembleDev
    rw [o1, Res.bind_ok, o2, Res.bind_ok, si.rid, so.rid]
    simp only [m1.rep.1.es, m2.rep.1.es, m1.rep.1.nc, m2.rep.1.nc, q1, q2]
    rw [Res.check_true trivial, Res.bind_ok, p1, r1]
    simp only [Res.bind_ok, hr, hne]
    rfl

theorem dev_mem (h : OpOK op S) (hp : FullOK op p S) {ri ro : Nat} (hr : activePair op = .ok (ri, ro)) {a b : ABasis}
    (ha : (asmData p op.inp p.inB op.nin).1 = [a]) (hb : (asmData p op.out p.outB op.nout).1 = [b]) {dv : Device}
    {junk : Vals α} {V W D v : Buf α} {off : Nat}
    (hl : V.len = a.modes.length * op.Q * (S.D ri).es ∧ W.len = b.modes.length * op.Q * (S.D ro).es)
    (hD : D.len = op.alen) (hv : off + numEntries op S ri ro ≤ v.len) :
    AsmMem (kOf op S dv ri ro a b) (oOf op ri ro) off (memAsm (shOf op S dv ri ro) junk V W D v) := by
  obtain ⟨si, so⟩ := sides h hp hr ha hb
  obtain ⟨m1, m2, _, n1, n2⟩ := pair_made h hp hr
  obtain ⟨i1, i2, _⟩ := m1.rep
  obtain ⟨o1, o2, _⟩ := m2.rep
  have bI : (op.rstrs ri).blockSize = 1 := i2
  have bO : (op.rstrs ro).blockSize = 1 := o2
  have nbI : (op.rstrs ri).numBlock = op.ne := by rw [i1.nb, bI, n1]; simp
  have nbO : (op.rstrs ro).numBlock = op.ne := by rw [o1.nb, bO, n2]; simp
  refine ⟨le_of_eq hl.1.symm, le_of_eq hl.2.symm, ?_, hv, ?_, ?_, ?_, ?_⟩
  · show a.modes.length * (S.D ri).nc * b.modes.length * (S.D ro).nc * op.ne * op.Q ≤ D.len
    rw [hD]
    unfold Oper.alen
    rw [si.widthIn, so.widthOut]
    exact le_of_eq (by ring)
  · intro c hc
    have hc' : (orientsOf (op.rstrs ri)).1 = some c := hc
    unfold orientsOf at hc'
    have h1 := i1.cov.ors
    rw [nbI, bI, i1.es, Nat.mul_one] at h1
    rcases hh : (op.rstrs ri).rtype with _ | _ | _ | _ | _ <;> rw [hh] at hc' h1 <;> cases hc'
    exact h1 rfl
  · intro c hc
    have hc' : (orientsOf (op.rstrs ro)).1 = some c := hc
    unfold orientsOf at hc'
    have h1 := o1.cov.ors
    rw [nbO, bO, o1.es, Nat.mul_one] at h1
    rcases hh : (op.rstrs ro).rtype with _ | _ | _ | _ | _ <;> rw [hh] at hc' h1 <;> cases hc'
    exact h1 rfl
  · intro c hc
    have hc' : (orientsOf (op.rstrs ri)).2 = some c := hc
    rw [orients_curl] at hc'
    split at hc'
    · cases hc'
      have h1 := i1.cov.cur (by assumption) rfl
      rw [nbI, bI, i1.es, Nat.mul_one] at h1
      exact h1
    · cases hc'
  · intro c hc
    have hc' : (orientsOf (op.rstrs ro)).2 = some c := hc
    rw [orients_curl] at hc'
    split at hc'
    · cases hc'
      have h1 := o1.cov.cur (by assumption) rfl
      rw [nbO, bO, o1.es, Nat.mul_one] at h1
      exact h1
    · cases hc'

/-- The kernel leaves the values of the host, if neither or both of the restrictions have curl orientations. -/
theorem dev_entries (h : OpOK op S) (hp : FullOK op p S) {ri ro : Nat} (hr : activePair op = .ok (ri, ro)) {dv : Device}
    {junk : Vals α} {D v : Buf α} {off : Nat} (hD : D.len = op.alen) (hv : off + numEntries op S ri ro ≤ v.len)
    (hpos : 0 < numEntries op S ri ro)
    (hcurl : ((op.rstrs ri).rtype = .curlOriented ↔ (op.rstrs ro).rtype = .curlOriented) ∧
      ((op.rstrs ri).rtype = .curlOriented → (S.D ri).es * (S.D ro).es ≤ dv.maxThreads))
    {Ln : Launch α} (e : assembleDev dv junk op p D off v = .ok Ln) :
    Runs Ln.G Ln.B Ln.cfg fun s =>
      (∀ e < op.ne, ∀ ci < (S.D ri).nc, ∀ co < (S.D ro).nc, ∀ i < (S.D ro).es, ∀ j < (S.D ri).es,
        s .v (off + epos (S.D ri).nc (S.D ro).nc (S.D ro).es (S.D ri).es e ci co i j) =
          entryVal op S (S.D ri) (S.D ro) (hostOf op D) e ci co i j) ∧
      ∀ x, x < off ∨ off + numEntries op S ri ro ≤ x → s .v x = v.val x := by
  obtain ⟨a, ha⟩ : ∃ a, (asmData p op.inp p.inB op.nin).1 = [a] := by
    rcases hx : (asmData p op.inp p.inB op.nin).1 with _ | ⟨a, _ | _⟩
    · unfold assembleDev oneBasis at e; rw [hx] at e; cases e
    · exact ⟨a, rfl⟩
    · unfold assembleDev oneBasis at e; rw [hx] at e; cases e
  obtain ⟨b, hb⟩ : ∃ b, (asmData p op.out p.outB op.nout).1 = [b] := by
    rcases hx : (asmData p op.out p.outB op.nout).1 with _ | ⟨b, _ | _⟩
    · unfold assembleDev oneBasis at e; rw [ha, hx] at e; cases e
    · exact ⟨b, rfl⟩
    · unfold assembleDev oneBasis at e; rw [ha, hx] at e; cases e
  obtain ⟨V, W, hl, hval, he⟩ := dev_run h hp hr ha hb dv junk D off v
  rw [he] at e
  obtain ⟨_, _, e⟩ := Res.bind_eq_ok.1 e
  have hm := dev_mem h hp hr ha hb (dv := dv) (junk := junk) hl hD hv
  obtain ⟨m1, m2, _, n1, n2⟩ := pair_made h hp hr
  obtain ⟨i1, i2, _⟩ := m1.rep
  obtain ⟨o1, o2, _⟩ := m2.rep
  unfold runDev at e
  split at e
  · cases e
  next hg =>
  cases e
  have hp0 : 0 < op.ne ∧ 0 < (S.D ro).es ∧ 0 < (S.D ri).es := by
    unfold numEntries at hpos
    refine ⟨?_, ?_, ?_⟩ <;> rw [Nat.pos_iff_ne_zero] <;> intro hz <;> rw [hz] at hpos <;> simp at hpos
  have hbY : 0 < blockY dv (S.D ri).es (S.D ro).es := by
    unfold blockY
    split
    · exact Nat.one_pos
    · exact hp0.2.1
  have hval' := hval (memAsm (shOf op S dv ri ro) junk V W D v).val _ rfl rfl rfl rfl
  by_cases hc : (op.rstrs ri).rtype = .curlOriented
  · have hc' := hcurl.1.mp hc
    have hI : (oOf op ri ro).cIn = some (op.rstrs ri).curlOrients := by
      show (orientsOf (op.rstrs ri)).2 = _
      rw [orients_curl, if_pos hc]
    have hO : (oOf op ri ro).cOut = some (op.rstrs ro).curlOrients := by
      show (orientsOf (op.rstrs ro)).2 = _
      rw [orients_curl, if_pos hc']
    have hY : blockY dv (S.D ri).es (S.D ro).es = (S.D ro).es := by
      unfold blockY
      exact if_neg (by have := hcurl.2 hc; omega)
    have hrun := curl_runs (k := kOf op S dv ri ro a b) hI hO hY hp0.2.2 hp0.2.1 hm (fun c _ => by
      show (S.D ro).es * (S.D ri).es + (S.D ri).es * (S.D ro).es ≤ shOf op S dv ri ro
      unfold shOf
      rw [orients_curl, if_pos hc, hY, Nat.mul_comm (S.D ro).es]
      simp)
    refine hrun.mono fun s hs => ⟨fun e he ci hci co hco i hi j hj => ?_, fun x hx => hs.2 x hx⟩
    have hs1 := hs.1 e he ci hci co hco i hi j hj
    rw [valPos_eq] at hs1
    refine hs1.trans ?_
    unfold entryVal curlRes
    have swap : ∑ n' ∈ range (S.D ri).es, (S.D ri).coef e n' j * ∑ n ∈ range (S.D ro).es, (S.D ro).coef e n i *
        elemSum op S (hostOf op D) e ci co n n' = ∑ n ∈ range (S.D ro).es, (S.D ro).coef e n i *
        ∑ n' ∈ range (S.D ri).es, (S.D ri).coef e n' j * elemSum op S (hostOf op D) e ci co n n' := by
      simp only [mul_sum]
      rw [sum_comm]
      refine sum_congr rfl (fun n _ => sum_congr rfl (fun n' _ => by ring))
    rw [swap, elem_curl o1 o2 hc' (by rw [n2]; exact he) hi]
    refine curlVal_congr hi fun n hn => ?_
    rw [elem_curl i1 i2 hc (by rw [n1]; exact he) hj]
    refine curlVal_congr hj fun n' hn' => ?_
    unfold asmRes
    rw [hval' e ci hci co hco n hn n' hn']
    have z1 : (oOf op ri ro).oIn = none := orients_plain hc
    have z2 : (oOf op ri ro).oOut = none := orients_plain hc'
    rw [z1, z2]
    simp [sgn]
  · have hc' : (op.rstrs ro).rtype ≠ .curlOriented := fun hh => hc (hcurl.1.mpr hh)
    have hI : (oOf op ri ro).cIn = none := by
      show (orientsOf (op.rstrs ri)).2 = _
      rw [orients_curl, if_neg hc]
    have hO : (oOf op ri ro).cOut = none := by
      show (orientsOf (op.rstrs ro)).2 = _
      rw [orients_curl, if_neg hc']
    have hrun := plain_runs (k := kOf op S dv ri ro a b) hp0.1 hp0.2.2 hbY hm hI hO
    refine hrun.mono fun s hs => ⟨fun e he ci hci co hco i hi j hj => ?_, fun x hx => hs.2 x hx⟩
    have hs1 := hs.1 e he ci hci co hco i hi j hj
    rw [valPos_eq] at hs1
    refine hs1.trans ?_
    unfold entryVal asmRes
    rw [elem_sign i1 i2 hc (by rw [n1]; exact he) hj, elem_sign o1 o2 hc' (by rw [n2]; exact he) hi,
      hval' e ci hci co hco i hi j hj]
    show _ * sgn (orientsOf (op.rstrs ri)).1 ((S.D ri).es * e + j) * sgn (orientsOf (op.rstrs ro)).1 ((S.D ro).es * e + i) = _
    ring

/-! ## The properties -/

/-- On a device, `CeedOperatorLinearAssemble` leaves the matrix of the operator, for the passive inputs as the QFunction was
assembled with: on every schedule the kernel ends without a data race and without an access outside its arrays, and for
every row and column the values at the positions with these coordinates (`CeedOperatorLinearAssembleSymbolic`) add up to
the entry; nothing else in `values` is changed. (Missing: elements with so many nodes that there is not a thread for each
entry, or only one of the two restrictions, with curl orientations: see `C70_curl_fallback_witness`,
`C70_curl_input_witness`, `C70_curl_output_witness`; adjacent gradients, `C70_adjacent_witness`; `values` shorter than the
number of entries; restrictions without nodes or components.) -/
theorem C70_assemble_partial (h : OpOK op S) (hp : FullOK op p S) (hlin : LinearQF op) {L : Nat → Nat → α} {D : Buf α}
    (hD : ColumnsDev op S L D) {N : Nat} (hc : countEntries op = .ok N) (hN : 0 < N) {off : Nat} {rc rc' : Buf (Int × Int)}
    (hs : symbolicSingle op p off rc = .ok rc') (hrl : off + N ≤ rc.len) {v : Buf α} (hl : off + N ≤ v.len) {dv : Device}
    (hcurl : ∀ ri ro, activePair op = .ok (ri, ro) →
      ((op.rstrs ri).rtype = .curlOriented ↔ (op.rstrs ro).rtype = .curlOriented) ∧
      ((op.rstrs ri).rtype = .curlOriented → (op.rstrs ri).elemSize * (op.rstrs ro).elemSize ≤ dv.maxThreads))
    {junk : Vals α} {Ln : Launch α} (e : assembleDev dv junk op p D off v = .ok Ln) {A : Nat → Nat → α}
    (hA : IsMatrix op S L p.inSize.toNat A) :
    Runs Ln.G Ln.B Ln.cfg fun s =>
      (∀ t c, c < p.inSize.toNat → coo N (fun k => rc'.val (off + k)) (fun k => s .v (off + k)) t c = A t c) ∧
      ∀ x, x < off ∨ off + N ≤ x → s .v x = v.val x := by
  obtain ⟨ri, ro, hr⟩ := count_pair hc
  rw [count_ok h hp hr] at hc
  cases hc
  obtain ⟨m1, m2, _⟩ := pair_made h hp hr
  have hcu := hcurl ri ro hr
  rw [m1.rep.1.es, m2.rep.1.es] at hcu
  refine (dev_entries h hp hr hD.1 hl hN hcu e).mono fun s hss => ⟨fun t c hcc => ?_, hss.2⟩
  obtain ⟨rc'', f1, f2, f3, f4, f5⟩ := symbolic_run h hp hr hrl
  rw [hs] at f1; cases f1
  obtain ⟨a, ha⟩ : ∃ a, (asmData p op.inp p.inB op.nin).1 = [a] := by
    rcases hx : (asmData p op.inp p.inB op.nin).1 with _ | ⟨a, _ | _⟩
    · unfold assembleDev oneBasis at e; rw [hx] at e; cases e
    · exact ⟨a, rfl⟩
    · unfold assembleDev oneBasis at e; rw [hx] at e; cases e
  obtain ⟨b, hb⟩ : ∃ b, (asmData p op.out p.outB op.nout).1 = [b] := by
    rcases hx : (asmData p op.out p.outB op.nout).1 with _ | ⟨b, _ | _⟩
    · unfold assembleDev oneBasis at e; rw [ha, hx] at e; cases e
    · exact ⟨b, rfl⟩
    · unfold assembleDev oneBasis at e; rw [ha, hx] at e; cases e
  obtain ⟨si, so⟩ := sides h hp hr ha hb
  rw [hA.entry h hlin hD.host t hcc, ← sum_entries si so (hostOf op D) t c]
  unfold coo numEntries
  rw [sum_epos]
  refine sum_congr rfl (fun e he => sum_congr rfl (fun ci hci => sum_congr rfl (fun co hco => sum_congr rfl (fun i hi =>
    sum_congr rfl (fun j hj => ?_)))))
  rw [mem_range] at he hci hco hi hj
  simp only []
  rw [f3 e he ci hci co hco i hi j hj, hss.1 e he ci hci co hco i hi j hj]

/-- The device computes the same values as the host from the same assembled QFunction, entry by entry. -/
theorem C70_host_partial (h : OpOK op S) (hp : FullOK op p S) {ri ro : Nat} (hr : activePair op = .ok (ri, ro)) {s s1 s2 : ASt α}
    (hs : AReach op False s) {tensor : Bool} {hjunk : Nat → Nat → α} {off out : Nat} {N : Nat} (hc : countEntries op = .ok N)
    (hN : 0 < N) (hl : off + N ≤ (s.st.vecs out).buf.len)
    (hhost : assembleSingle op p tensor hjunk off out s = .ok s2 ()) {H D : Buf α}
    (hH : buildOrUpdate op hjunk s = .ok s1 H) (hDl : D.len = op.ne * op.Q * op.cIn * op.cOut)
    (hD : ∀ e < op.ne, ∀ c < op.cIn, ∀ d < op.cOut, ∀ q < op.Q, D.val (((c * op.cOut + d) * op.ne + e) * op.Q + q) =
      H.val (((e * op.cIn + c) * op.cOut + d) * op.Q + q)) {dv : Device}
    (hcurl : ((op.rstrs ri).rtype = .curlOriented ↔ (op.rstrs ro).rtype = .curlOriented) ∧
      ((op.rstrs ri).rtype = .curlOriented → (op.rstrs ri).elemSize * (op.rstrs ro).elemSize ≤ dv.maxThreads))
    {junk : Vals α} {Ln : Launch α} (e : assembleDev dv junk op p D off (s.st.vecs out).buf = .ok Ln) :
    Runs Ln.G Ln.B Ln.cfg fun t => ∀ x, t .v x = s2.st.L out x := by
  rw [count_ok h hp hr] at hc
  cases hc
  obtain ⟨g1, g2, _⟩ := hs.good h
  obtain ⟨m1, m2, _, n1, n2⟩ := pair_made h hp hr
  rw [m1.rep.1.es, m2.rep.1.es] at hcurl
  refine (dev_entries h hp hr hDl hl hN hcurl e).mono fun t ht x => ?_
  rcases single_run h hp g1 g2 hr hl hhost with ⟨h0, rfl⟩ | ⟨h0, s1', v, w, a, b, ha, hb, e1, rfl, hw, z4, e3, e4⟩
  · unfold numEntries at hN
    rw [h0] at hN
    simp at hN
  · rw [hH] at e1
    cases e1
    have hout : (stored s1 out w).st.L out x = w.val x := by
      unfold stored St.L; simp only [Function.update_self]
    rw [hout]
    rcases Nat.lt_or_ge x off with hx | hx
    · rw [ht.2 x (.inl hx), e4 x (.inl hx)]
      rfl
    · rcases Nat.lt_or_ge x (off + numEntries op S ri ro) with hx' | hx'
      · obtain ⟨e, he, ci, hci, co, hco, i, hi, j, hj, hk⟩ := epos_surj (k := x - off) (ne := op.ne) (ncI := (S.D ri).nc)
          (ncO := (S.D ro).nc) (esO := (S.D ro).es) (esI := (S.D ri).es) (by
            have : numEntries op S ri ro = op.ne * (S.D ri).nc * (S.D ro).nc * (S.D ro).es * (S.D ri).es := rfl
            omega)
        have hxe : x = off + epos (S.D ri).nc (S.D ro).nc (S.D ro).es (S.D ri).es e ci co i j := by omega
        rw [hxe, ht.1 e he ci hci co hco i hi j hj, e3 e he ci hci co hco i hi j hj]
        obtain ⟨si, so⟩ := sides h hp hr ha hb
        unfold entryVal elemSum
        refine sum_congr rfl (fun n' hn' => ?_)
        congr 1
        refine sum_congr rfl (fun n hn => ?_)
        congr 1
        refine sum_congr rfl (fun o hoo => ?_)
        split
        next hao =>
          refine sum_congr rfl (fun k hkk => ?_)
          split
          next hak =>
            rw [mem_range] at hoo hkk
            unfold Meaning.kern
            refine sum_congr rfl (fun c hcc => sum_congr rfl (fun d hd => sum_congr rfl (fun q hq => ?_)))
            rw [mem_range] at hcc hd hq
            unfold Oper.apos
            rw [hostOf_val D (offset_add_lt _ hkk hak (c := d * (S.dat (op.inp k)).nc + ci) ?_)
              (offset_add_lt _ hoo hao (c := c * (S.dat (op.out o)).nc + co) ?_) hq, hD e he _ ?_ _ ?_ q hq]
            · exact offset_add_lt _ hkk hak (by
                rw [si.size k hkk hak, si.dat hkk hak]; exact enc_lt hd hci)
            · exact offset_add_lt _ hoo hao (by
                rw [so.size o hoo hao, so.dat hoo hao]; exact enc_lt hcc hco)
            · rw [si.size k hkk hak, si.dat hkk hak]; exact enc_lt hd hci
            · rw [so.size o hoo hao, so.dat hoo hao]; exact enc_lt hcc hco
          · rfl
        · rfl
      · rw [ht.2 x (.inr hx'), e4 x (.inr hx')]
        rfl

/-- The call succeeds for operators with elements, one restriction and one basis on either side, if the elements have at
most as many nodes as a block may have threads. -/
theorem C70_succeeds (h : OpOK op S) (hp : FullOK op p S) {ri ro : Nat} (hr : activePair op = .ok (ri, ro))
    (hi : 0 < op.cIn) (ho : 0 < op.cOut) (hne : 0 < op.ne) {βi βo : Option Nat}
    (hβi : ∀ i < op.nin, (op.inp i).vec = .active → p.inB i = βi)
    (hβo : ∀ o < op.nout, (op.out o).vec = .active → p.outB o = βo) {dv : Device}
    (hdv : (op.rstrs ri).elemSize ≤ dv.maxThreads) (junk : Vals α) (D : Buf α) (off : Nat) (v : Buf α) :
    ∃ Ln, assembleDev dv junk op p D off v = .ok Ln := by
  obtain ⟨p1, p2⟩ := activePair_ok hr
  obtain ⟨_, i, hi1, hi2⟩ := activeRstr_ok p1
  obtain ⟨_, o, ho1, ho2⟩ := activeRstr_ok p2
  rcases asmData_one (p := p) op.nin hβi with ⟨hh, _⟩ | ⟨a, ha, _⟩
  · exact absurd hi2 (hh i hi1)
  rcases asmData_one (p := p) op.nout hβo with ⟨hh, _⟩ | ⟨b, hb, _⟩
  · exact absurd ho2 (hh o ho1)
  obtain ⟨si, so⟩ := sides h hp hr ha hb
  obtain ⟨m1, m2, _⟩ := pair_made h hp hr
  rw [m1.rep.1.es] at hdv
  obtain ⟨V, W, _, _, he⟩ := dev_run h hp hr ha hb dv junk D off v
  rw [he, Res.check_true ⟨si.pos hi, so.pos ho⟩, Res.bind_ok]
  unfold runDev
  rw [if_neg]
  · exact ⟨_, rfl⟩
  · rintro (hh | hh)
    · omega
    · unfold blockY at hh
      split at hh
      · omega
      · omega

/-- Elements with more nodes than a block may have threads cannot be assembled: the driver refuses the launch. (The
fallback only reduces the threads per node of the output.) -/
theorem C70_large_rejected (h : OpOK op S) (hp : FullOK op p S) {ri ro : Nat} (hr : activePair op = .ok (ri, ro))
    (hi : 0 < op.cIn) (ho : 0 < op.cOut) {βi βo : Option Nat}
    (hβi : ∀ i < op.nin, (op.inp i).vec = .active → p.inB i = βi)
    (hβo : ∀ o < op.nout, (op.out o).vec = .active → p.outB o = βo) {dv : Device}
    (hes : 0 < (op.rstrs ro).elemSize) (hdv : dv.maxThreads < (op.rstrs ri).elemSize) (junk : Vals α) (D : Buf α) (off : Nat)
    (v : Buf α) : assembleDev dv junk op p D off v = .err .backend := by
  obtain ⟨p1, p2⟩ := activePair_ok hr
  obtain ⟨_, i, hi1, hi2⟩ := activeRstr_ok p1
  obtain ⟨_, o, ho1, ho2⟩ := activeRstr_ok p2
  rcases asmData_one (p := p) op.nin hβi with ⟨hh, _⟩ | ⟨a, ha, _⟩
  · exact absurd hi2 (hh i hi1)
  rcases asmData_one (p := p) op.nout hβo with ⟨hh, _⟩ | ⟨b, hb, _⟩
  · exact absurd ho2 (hh o ho1)
  obtain ⟨si, so⟩ := sides h hp hr ha hb
  obtain ⟨m1, m2, _⟩ := pair_made h hp hr
  rw [m1.rep.1.es] at hdv
  rw [m2.rep.1.es] at hes
  obtain ⟨V, W, _, _, he⟩ := dev_run h hp hr ha hb dv junk D off v
  rw [he, Res.check_true ⟨si.pos hi, so.pos ho⟩, Res.bind_ok]
  unfold runDev
  refine if_pos (.inr ?_)
  unfold blockY
  rw [if_pos (lt_of_lt_of_le hdv (Nat.le_mul_of_pos_right _ hes))]
  omega

/-- Operators with several bases for the active inputs, or for the active outputs, are rejected. -/
theorem C70_bases_rejected (dv : Device) (junk : Vals α) (D : Buf α) (off : Nat) (v : Buf α)
    (hb : (∃ i < op.nin, ∃ j < op.nin, (op.inp i).vec = .active ∧ (op.inp j).vec = .active ∧ p.inB i ≠ p.inB j) ∨
      ∃ i < op.nout, ∃ j < op.nout, (op.out i).vec = .active ∧ (op.out j).vec = .active ∧ p.outB i ≠ p.outB j) :
    assembleDev dv junk op p D off v = .err .backend := by
  have two : ∀ (f : Nat → OField α) (ids : Nat → Option Nat) (n i j : Nat), i < n → j < n → (f i).vec = .active →
      (f j).vec = .active → ids i ≠ ids j → oneBasis p f ids n = .err .backend := by
    intro f ids n i j h1 h2 h3 h4 h5
    have m1 := asmData_mem (p := p) (ids := ids) h3 n h1
    have m2 := asmData_mem (p := p) (ids := ids) h4 n h2
    unfold oneBasis
    rcases hx : (asmData p f ids n).1 with _ | ⟨a, _ | _⟩
    · rfl
    · rw [hx] at m1 m2
      simp only [List.map_cons, List.map_nil, List.mem_singleton] at m1 m2
      exact absurd (m1.trans m2.symm) h5
    · rfl
  have one : ∀ (f : Nat → OField α) (ids : Nat → Option Nat) (n : Nat), oneBasis p f ids n = .err .backend ∨
      ∃ a, oneBasis p f ids n = .ok a := by
    intro f ids n
    unfold oneBasis
    split
    · exact .inr ⟨_, rfl⟩
    · exact .inl rfl
  unfold assembleDev
  rcases hb with ⟨i, hi, j, hj, ha, ha', hne⟩ | ⟨i, hi, j, hj, ha, ha', hne⟩
  · rw [two op.inp p.inB op.nin i j hi hj ha ha' hne]
    rfl
  · rcases one op.inp p.inB op.nin with h1 | ⟨a, h1⟩
    · rw [h1]
      rfl
    · rw [h1, Res.bind_ok, two op.out p.outB op.nout i j hi hj ha ha' hne]
      rfl

end Verif.Gpu
