import Verif.Flops.Lemmas
import Verif.Restriction.Props

/-!
# What restrictions count
-/

namespace Verif
namespace Flops

open Restriction (TMode RType Rstr laneEnd)
open Finset (range)

variable {α : Type} [CommRing α]

theorem bind_loop_tick {σ τ : Type _} {n : Nat} {bodyC : Nat → σ × Nat → Res (σ × Nat)} {body : Nat → σ → Res σ} {w m : Nat}
    {s : σ} {k : Nat} {F : σ × Nat → Res (τ × Nat)} {G : σ → Res τ}
    (h : ∀ i < n, ∀ s k, bodyC i (s, k) = tick (body i s) (k + w)) (hF : ∀ s, F (s, k + n * w) = tick (G s) m) :
    (loop n bodyC (s, k) >>= F) = tick (loop n body s >>= G) m := by
  rw [loop_tick_const h, bind_tick, tick_bind]
  exact bind_congr' _ hF

theorem orientedNTC_eq (nc bs es : Nat) (cs : Int) (start stop voff : Nat) (offs : Buf Int) (ors : Buf Bool)
    (uu vv : Buf α) :
    orientedNTC nc bs es cs start stop voff offs ors uu vv =
      tick (Restriction.orientedNT nc bs es cs start stop voff offs ors uu vv) ((stop - start) * (nc * (es * bs * 1))) := by
  unfold orientedNTC Restriction.orientedNT
  rw [loop_tick_const (w := nc * (es * bs * 1)) (body := fun b vv =>
    let e := (start + b) * bs
    loop nc (fun k vv => loop (es * bs) (fun i vv => do
      let o ← offs.rd (i + e * es)
      let x ← uu.rdI (o + k * cs)
      let s ← ors.rd (i + e * es)
      vv.wrS (es * (k * bs + e * nc) + i) voff (x * (if s then -1 else 1))) vv) vv)]
  · simp only [Nat.zero_add]
  · intro b _ s k
    refine loop_tick_const (fun c _ s k => loop_tick_const (fun i _ s k => ?_) s k) s k
    simp only [tick_bind]
    rfl

theorem stridedTC_eq (nc bs es : Nat) (ne : Int) (start stop voff : Nat) (idx : Int → Int → Int → Int) (uu vv : Buf α) :
    stridedTC nc bs es ne start stop voff idx uu vv =
      tick (Restriction.stridedT nc bs es ne start stop voff idx uu vv)
        (∑ b ∈ range (stop - start), nc * (es * (laneEnd bs ne ((start + b) * bs) * 1))) := by
  unfold stridedTC Restriction.stridedT
  rw [loop_tick (fun b => nc * (es * (laneEnd bs ne ((start + b) * bs) * 1))) (body := fun b vv =>
    let e := (start + b) * bs
    loop nc (fun k vv => loop es (fun n vv => loop (laneEnd bs ne e) (fun j vv => do
      let x ← uu.rdS (e * es * nc + (k * es + n) * bs + j) voff
      vv.addAtI (idx n k ((e + j : Nat) : Int)) x) vv) vv) vv)]
  · simp only [Nat.zero_add]
  · intro b _ s k
    refine loop_tick_const (fun c _ s k => loop_tick_const (fun i _ s k => loop_tick_const (fun j _ s k => ?_) s k) s k) s k
    simp only [tick_bind]
    rfl

theorem offsetTC_eq (nc bs es : Nat) (ne cs : Int) (start stop voff : Nat) (offs : Buf Int) (uu vv : Buf α) :
    offsetTC nc bs es ne cs start stop voff offs uu vv =
      tick (Restriction.offsetT nc bs es ne cs start stop voff offs uu vv)
        (∑ b ∈ range (stop - start), nc * (es * (laneEnd bs ne ((start + b) * bs) * 1))) := by
  unfold offsetTC Restriction.offsetT
  rw [loop_tick (fun b => nc * (es * (laneEnd bs ne ((start + b) * bs) * 1))) (body := fun b vv =>
    let e := (start + b) * bs
    loop nc (fun k vv => loop es (fun n vv => loop (laneEnd bs ne e) (fun j' vv => do
      let j := n * bs + j'
      let x ← uu.rdS (es * (k * bs + e * nc) + j) voff
      let o ← offs.rd (j + e * es)
      vv.addAtI (o + k * cs) x) vv) vv) vv)]
  · simp only [Nat.zero_add]
  · intro b _ s k
    refine loop_tick_const (fun c _ s k => loop_tick_const (fun i _ s k => loop_tick_const (fun j _ s k => ?_) s k) s k) s k
    simp only [tick_bind]
    rfl

theorem orientedTC_eq (nc bs es : Nat) (ne cs : Int) (start stop voff : Nat) (offs : Buf Int) (ors : Buf Bool)
    (uu vv : Buf α) :
    orientedTC nc bs es ne cs start stop voff offs ors uu vv =
      tick (Restriction.orientedT nc bs es ne cs start stop voff offs ors uu vv)
        (∑ b ∈ range (stop - start), nc * (es * (laneEnd bs ne ((start + b) * bs) * 2))) := by
  unfold orientedTC Restriction.orientedT
  rw [loop_tick (fun b => nc * (es * (laneEnd bs ne ((start + b) * bs) * 2))) (body := fun b vv =>
    let e := (start + b) * bs
    loop nc (fun k vv => loop es (fun n vv => loop (laneEnd bs ne e) (fun j' vv => do
      let j := n * bs + j'
      let x ← uu.rdS (es * (k * bs + e * nc) + j) voff
      let s ← ors.rd (j + e * es)
      let o ← offs.rd (j + e * es)
      vv.addAtI (o + k * cs) (x * (if s then -1 else 1))) vv) vv) vv)]
  · simp only [Nat.zero_add]
  · intro b _ s k
    refine loop_tick_const (fun c _ s k => loop_tick_const (fun i _ s k => loop_tick_const (fun j _ s k => ?_) s k) s k) s k
    simp only [tick_bind]
    rfl

theorem curlNTC_eq (nc bs es : Nat) (cs : Int) (start stop voff : Nat) (offs cur : Buf Int) (conv : Int → α)
    (uu vv : Buf α) :
    curlNTC nc bs es cs start stop voff offs cur conv uu vv =
      tick (Restriction.curlNT nc bs es cs start stop voff offs cur conv uu vv)
        ((stop - start) * (nc * (bs * 3 + (es - 2) * (bs * 5) + bs * 3))) := by
  unfold curlNTC Restriction.curlNT
  rw [loop_tick_const (w := nc * (bs * 3 + (es - 2) * (bs * 5) + bs * 3)) (body := fun b vv =>
    let e := (start + b) * bs
    let t := Restriction.curlTermNT bs es cs offs cur conv uu e
    loop nc (fun k vv => do
      let vv ← loop bs (fun j vv => do
        let x ← t k j 0 0 1
        let y ← t k j 1 0 2
        vv.wrS (e * es * nc + (k * es + 0) * bs + j) voff (x + y)) vv
      let vv ← loop (es - 2) (fun n' vv =>
        let n := n' + 1
        loop bs (fun j vv => do
          let x ← t k j (n - 1) n 0
          let y ← t k j n n 1
          let z ← t k j (n + 1) n 2
          vv.wrS (e * es * nc + (k * es + n) * bs + j) voff (x + y + z)) vv) vv
      let n := Restriction.lastN es
      loop bs (fun j vv => do
        let x ← t k j (n - 1) n 0
        let y ← t k j n n 1
        vv.wrS (e * es * nc + (k * es + n) * bs + j) voff (x + y)) vv) vv)]
  · simp only [Nat.zero_add]
  · intro b _ s k
    refine loop_tick_const (fun c _ s k => ?_) s k
    dsimp only
    refine bind_loop_tick (w := 3) (fun j _ s k => by simp only [tick_bind]; rfl) fun s1 => ?_
    refine bind_loop_tick (w := bs * 5) (fun n _ s k => loop_tick_const (w := 5) (fun j _ s k => by
      simp only [tick_bind]; rfl) s k) fun s2 => ?_
    simp only [← Nat.add_assoc]
    exact loop_tick_const (w := 3) (fun j _ s k => by simp only [tick_bind]; rfl) _ _

theorem curlTC_eq (nc bs es : Nat) (ne cs : Int) (start stop voff : Nat) (offs cur : Buf Int) (conv : Int → α)
    (uu vv : Buf α) :
    curlTC nc bs es ne cs start stop voff offs cur conv uu vv =
      tick (Restriction.curlT nc bs es ne cs start stop voff offs cur conv uu vv)
        (∑ b ∈ range (stop - start), nc * (laneEnd bs ne ((start + b) * bs) * 4 +
          (es - 2) * (laneEnd bs ne ((start + b) * bs) * 6) + laneEnd bs ne ((start + b) * bs) * 4)) := by
  unfold curlTC Restriction.curlT
  rw [loop_tick (fun b => nc * (laneEnd bs ne ((start + b) * bs) * 4 +
    (es - 2) * (laneEnd bs ne ((start + b) * bs) * 6) + laneEnd bs ne ((start + b) * bs) * 4)) (body := fun b vv =>
    let e := (start + b) * bs
    let t := Restriction.curlTermT nc bs es voff cur conv uu e
    let be := laneEnd bs ne e
    loop nc (fun k vv => do
      let vv ← loop be (fun j vv => do
        let x ← t k j 0 1
        let y ← t k j 1 3
        let o ← offs.rd (j + 0 * bs + e * es)
        vv.addAtI (o + k * cs) (x + y)) vv
      let vv ← loop (es - 2) (fun n' vv =>
        let n := n' + 1
        loop be (fun j vv => do
          let x ← t k j (n - 1) (3 * n - 1)
          let y ← t k j n (3 * n + 1)
          let z ← t k j (n + 1) (3 * n + 3)
          let o ← offs.rd (j + n * bs + e * es)
          vv.addAtI (o + k * cs) (x + y + z)) vv) vv
      let n := Restriction.lastN es
      loop be (fun j vv => do
        let x ← t k j (n - 1) (3 * n - 1)
        let y ← t k j n (3 * n + 1)
        let o ← offs.rd (j + n * bs + e * es)
        vv.addAtI (o + k * cs) (x + y)) vv) vv)]
  · simp only [Nat.zero_add]
  · intro b _ s k
    refine loop_tick_const (fun c _ s k => ?_) s k
    dsimp only
    refine bind_loop_tick (w := 4) (fun j _ s k => by simp only [tick_bind]; rfl) fun s1 => ?_
    refine bind_loop_tick (w := laneEnd bs ne ((start + b) * bs) * 6) (fun n _ s k => loop_tick_const (w := 6)
      (fun j _ s k => by simp only [tick_bind]; rfl) s k) fun s2 => ?_
    simp only [← Nat.add_assoc]
    exact loop_tick_const (w := 4) (fun j _ s k => by simp only [tick_bind]; rfl) _ _

/-- Number of points of an element, zero if there is no such element. -/
def pts (r : Rstr) (e : Int) : Nat := match Restriction.numPointsInElement r e with
  | .ok n => n.toNat
  | _ => 0

theorem pointsC_eq (r : Rstr) (nc start stop : Nat) (tm : TMode) (uu vv : Buf α) :
    pointsC r nc start stop tm uu vv =
      tick (Restriction.pointsKernel r nc start stop tm uu vv)
        (match tm with
          | .noTranspose => 0
          | .transpose => ∑ b ∈ range (stop - start), pts r ((start + b : Nat) : Int) * (nc * 1)) := by
  unfold pointsC Restriction.pointsKernel
  rw [loop_tick (fun b => match tm with
    | .noTranspose => 0
    | .transpose => pts r ((start + b : Nat) : Int) * (nc * 1)) (body := fun b (s : Buf α × Int) => do
    let e : Int := ((start + b : Nat) : Int)
    let lOff ← r.offsets.rdI e
    let np ← Restriction.numPointsInElement r e
    let vv ← (match tm with
      | .noTranspose => loop np.toNat (fun i vv => loop nc (fun j vv => do
          let o ← r.offsets.rdI ((i : Int) + lOff)
          let x ← uu.rdI (o * nc + j)
          vv.wrI (j * np + i + s.2) x) vv) s.1
      | .transpose => loop np.toNat (fun i vv => loop nc (fun j vv => do
          let o ← r.offsets.rdI ((i : Int) + lOff)
          let x ← uu.rdI (j * np + i + s.2)
          vv.addAtI (o * nc + j) x) vv) s.1)
    Res.ok (vv, s.2 + np * nc))]
  · rw [bind_tick, tick_bind]
    refine bind_congr' _ fun s => ?_
    cases tm <;> simp
  · intro b _ s k
    dsimp only
    rw [tick_bind]
    refine bind_congr' _ fun l => ?_
    rw [tick_bind]
    cases hn : Restriction.numPointsInElement r ((start + b : Nat) : Int) with
    | err e => rfl
    | ub => rfl
    | ok np =>
      simp only [Res.bind_ok]
      cases tm
      · simp only [Res.bind_assoc', tick_bind, Res.bind_ok, tick_ok, Nat.add_zero]
      · dsimp only
        have hp : pts r ((start + b : Nat) : Int) = np.toNat := by unfold pts; rw [hn]
        rw [hp]
        exact bind_loop_tick (w := nc * 1) (fun i _ s k => loop_tick_const (w := 1) (fun j _ s k => by
          simp only [tick_bind]; rfl) s k) fun s1 => rfl

/-- The number of operations of the application of a restriction. -/
def rstrCount (r : Rstr) (tm : TMode) : Nat :=
  match tm with
  | .noTranspose => match r.rtype with
    | .strided => 0
    | .standard => 0
    | .oriented => r.numBlock * (r.numComp * (r.elemSize * r.blockSize))
    | .curlOriented => r.numBlock * (r.numComp * (r.blockSize * 3 + (r.elemSize - 2) * (r.blockSize * 5) + r.blockSize * 3))
    | .points => 0
  | .transpose => match r.rtype with
    | .strided => ∑ b ∈ range r.numBlock, r.numComp * (r.elemSize * laneEnd r.blockSize r.numElem (b * r.blockSize))
    | .standard => ∑ b ∈ range r.numBlock, r.numComp * (r.elemSize * laneEnd r.blockSize r.numElem (b * r.blockSize))
    | .oriented => ∑ b ∈ range r.numBlock, r.numComp * (r.elemSize * (laneEnd r.blockSize r.numElem (b * r.blockSize) * 2))
    | .curlOriented => ∑ b ∈ range r.numBlock, r.numComp * (laneEnd r.blockSize r.numElem (b * r.blockSize) * 4 +
          (r.elemSize - 2) * (laneEnd r.blockSize r.numElem (b * r.blockSize) * 6) +
          laneEnd r.blockSize r.numElem (b * r.blockSize) * 4)
    | .points => ∑ b ∈ range r.numBlock, pts r b * r.numComp

theorem rstrApplyC_eq (r : Rstr) (tm : TMode) (uu vv : Buf α) :
    rstrApplyC r r.numComp r.blockSize r.compStride 0 r.numBlock tm uu vv =
      tick (Restriction.applyCore r r.numComp r.blockSize r.compStride 0 r.numBlock tm true true uu vv) (rstrCount r tm) := by
  unfold rstrApplyC Restriction.applyCore rstrCount
  cases tm
  · cases r.rtype <;> dsimp only
    · rw [tick_bind]
      rfl
    · rfl
    · rw [orientedNTC_eq]
      simp
    · rw [curlNTC_eq]
      simp
    · rw [pointsC_eq]
  · cases r.rtype <;> dsimp only
    · rw [tick_bind]
      simp [stridedTC_eq]
    · simp [offsetTC_eq]
    · simp [orientedTC_eq]
    · simp [curlTC_eq]
    · simp [pointsC_eq]

theorem rstrRunC_eq (r : Rstr) (tm : TMode) (u v : Buf α) :
    rstrRunC r tm u v = tick (Restriction.apply r .plain tm u v) (if 0 < r.numElem then rstrCount r tm else 0) := by
  unfold rstrRunC Restriction.apply
  generalize (match tm with
    | .noTranspose => (r.lSize, (r.eSize : Int))
    | .transpose => ((r.eSize : Int), r.lSize)) = p
  obtain ⟨a, b⟩ := p
  dsimp only
  rw [tick_bind]
  refine bind_congr' _ fun _ => ?_
  rw [tick_bind]
  refine bind_congr' _ fun _ => ?_
  split_ifs
  · rw [rstrApplyC_eq, Restriction.C17_specialised_kernels]
    rfl
  · rfl

end Flops
end Verif
