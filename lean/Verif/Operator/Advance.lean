import Verif.Operator.Props

/-!
# Applications change vectors only with their state counters

Whatever an application returns, every vector it has changed has a larger state counter. This is what other operators that
read these vectors rely on.
-/

set_option linter.unusedSectionVars false

namespace Verif
namespace Operator

open Restriction (Rstr Made)
open Basis (Bas EMode)

variable {α : Type} [CommRing α]

/-- The call changes vectors only with their state counters, also when it returns an error. -/
def Adv {β : Type} (m : M (St α) β) : Prop := ∀ s, (m s).Post fun s' => Advances s.vecs s'.vecs

theorem Adv.bind {β γ : Type} {m : M (St α) β} {f : β → M (St α) γ} (hm : Adv m) (hf : ∀ b, Adv (f b)) : Adv (m >>= f) := by
  intro s
  rw [M.bind_apply]
  refine Out.Post.bind (hm s) (fun _ => id) fun s' a _ hs => ?_
  have := hf a s'
  cases e : f a s' with
  | ok s2 x => rw [e] at this; exact hs.trans this
  | err s2 x => rw [e] at this; exact hs.trans this
  | ub => trivial

theorem Adv.pure {β : Type} (a : β) : Adv (Pure.pure a : M (St α) β) := fun _ => Advances.refl _
theorem Adv.fail {β : Type} (e : Err) : Adv (M.fail e : M (St α) β) := fun _ => Advances.refl _
theorem Adv.undef {β : Type} : Adv (M.undef : M (St α) β) := fun _ => trivial
theorem Adv.getS : Adv (getS : M (St α) (St α)) := fun _ => Advances.refl _
theorem Adv.modI (g : Impl α → Impl α) : Adv (modI g) := fun _ => Advances.refl _
theorem Adv.modP (g : (Nat → Option Nat) → Nat → Option Nat) : Adv (modP g : M (St α) Unit) := fun _ => Advances.refl _
theorem Adv.check (c : Prop) [Decidable c] (e : Err) : Adv (M.check c e : M (St α) Unit) := by
  intro s
  rw [M.check_apply]
  split <;> exact Advances.refl _
theorem Adv.lift {β : Type} (r : Res β) : Adv (M.lift r : M (St α) β) := by
  intro s
  cases r <;> first | exact Advances.refl _ | trivial
theorem Adv.ptr {β : Type} (p : Option β) : Adv (ptr p : M (St α) β) := by
  cases p
  · exact Adv.undef
  · exact Adv.pure _
theorem Adv.ite {β : Type} {c : Prop} [Decidable c] {m n : M (St α) β} (hm : Adv m) (hn : Adv n) :
    Adv (if c then m else n) := by
  split
  · exact hm
  · exact hn

theorem Adv.loop {n : Nat} {f : Nat → M (St α) Unit} (h : ∀ i < n, Adv (f i)) : Adv (M.loop n f) := by
  induction n with
  | zero => exact Adv.pure _
  | succ n ih =>
    intro s
    rw [M.loop_succ]
    refine Out.Post.bind (ih (fun i hi => h i (by omega)) s) (fun _ => id) fun s' a _ hs => ?_
    have := h n (by omega) s'
    cases e : f n s' with
    | ok s2 x => rw [e] at this; exact hs.trans this
    | err s2 x => rw [e] at this; exact hs.trans this
    | ub => trivial

theorem Adv.readVec (p : VPtr) : Adv (readVec p : M (St α) (Buf α)) := by
  intro s
  cases p with
  | null => trivial
  | none => exact Advances.refl _
  | vec i =>
    unfold Operator.readVec
    dsimp only
    split <;> exact Advances.refl _

theorem Adv.restrictIn (op : Oper α) (i : Nat) (p : VPtr) : Adv (restrictIn op i p) :=
  Adv.getS.bind fun _ => (Adv.ptr _).bind fun _ => (Adv.ptr _).bind fun _ => (Adv.readVec p).bind fun _ =>
    (Adv.check _ _).bind fun _ => (Adv.lift _).bind fun _ => Adv.modI _

theorem Adv.lockRead (i : Nat) : Adv (lockRead i : M (St α) Unit) :=
  Adv.getS.bind fun _ => (Adv.ptr _).bind fun _ => (Adv.check _ _).bind fun _ => Adv.modI _

theorem Adv.setupInputs (op : Oper α) (inv : VPtr) (b : Bool) : Adv (setupInputs op inv b) :=
  Adv.loop fun i _ => Adv.ite (Adv.pure _) (Adv.ite (Adv.pure _) (Adv.getS.bind fun _ =>
    (Adv.getS.bind fun _ => Adv.ite (Adv.restrictIn _ _ _) (Adv.pure _)).bind fun _ => (Adv.modI _).bind fun _ => Adv.lockRead i))

theorem Adv.lockWrites (op : Oper α) : Adv (lockWrites op) :=
  Adv.loop fun _ _ => Adv.getS.bind fun _ => Adv.ite (Adv.modP _) ((Adv.ptr _).bind fun _ => (Adv.check _ _).bind fun _ =>
    (Adv.modI _).bind fun _ => Adv.modP _)

theorem Adv.inputBasis (op : Oper α) (junk : Nat → Nat → α) (b : Bool) (e : Nat) : Adv (inputBasis op junk b e) :=
  Adv.loop fun _ _ => Adv.ite (Adv.pure _) (Adv.ite
    (Adv.getS.bind fun _ => (Adv.ptr _).bind fun _ => (Adv.lift _).bind fun _ => Adv.modI _)
    (Adv.ite (Adv.getS.bind fun _ => (Adv.ptr _).bind fun _ => (Adv.ptr _).bind fun _ => (Adv.ptr _).bind fun _ =>
      (Adv.lift _).bind fun _ => (Adv.lift _).bind fun _ => Adv.modI _) (Adv.pure _)))

theorem Adv.element (op : Oper α) (junk : Nat → Nat → α) (e : Nat) : Adv (element op junk e) :=
  (Adv.inputBasis op junk false e).bind fun _ => Adv.getS.bind fun _ =>
    (Adv.loop fun _ _ => Adv.getS.bind fun _ => Adv.ite ((Adv.ptr _).bind fun _ => (Adv.lift _).bind fun _ =>
      Adv.ite (Adv.pure _) (Adv.modI _)) (Adv.pure _)).bind fun _ =>
    Adv.loop fun _ _ => Adv.ite (Adv.pure _) (Adv.ite (Adv.getS.bind fun _ => (Adv.ptr _).bind fun _ => (Adv.ptr _).bind fun _ =>
      (Adv.ptr _).bind fun _ => (Adv.lift _).bind fun _ => (Adv.lift _).bind fun _ => Adv.modI _) (Adv.fail _))

theorem Adv.scatterInto {r : Rstr} {l : Int} {D : Restriction.RData α} (hm : Made .plain r 1 l D) (w : Buf α) (p : VPtr) :
    Adv (scatterInto r w p) := by
  intro s
  cases p with
  | null => trivial
  | none => exact Advances.refl _
  | vec i =>
    unfold Operator.scatterInto
    dsimp only
    split
    · rcases Restriction.C13_apply_safe hm .transpose w (s.vecs i).buf with e | ⟨v', e, hl⟩
      · rw [e]; exact Advances.refl _
      · rw [e]; exact Advances.update hl (by show _ < (s.vecs i).state + 2; omega)
    · exact Advances.refl _

theorem HasRstr.out {op : Oper α} {S : Meaning α} (h : OpOK op S) {o : Nat} (ho : o < op.nout) : HasRstr op S (op.out o) := by
  have := h.out o ho
  unfold OutOK at this
  split at this
  · exact this.elim
  · exact this.1
  · exact this.1

theorem Adv.finishOut {op : Oper α} {S : Meaning α} (h : OpOK op S) (outv : VPtr) {o : Nat} (ho : o < op.nout) :
    Adv (finishOut op outv o) := by
  refine Adv.getS.bind fun _ => Adv.ite (Adv.pure _) ((Adv.ptr _).bind fun _ => (Adv.modI _).bind fun _ => ?_)
  obtain ⟨r, l, h1, h2, _⟩ := HasRstr.out h ho
  rw [h1]
  exact Adv.scatterInto h2 _ _

theorem Adv.generalApply {op : Oper α} {S : Meaning α} (h : OpOK op S) (junk : Nat → Nat → α) (inv outv : VPtr) :
    Adv (generalApply op junk inv outv) :=
  (Adv.setupInputs op inv false).bind fun _ => (Adv.lockWrites op).bind fun _ =>
    (Adv.loop fun e _ => Adv.element op junk e).bind fun _ => (Adv.loop fun _ ho => Adv.finishOut h outv ho).bind fun _ =>
    Adv.loop fun _ _ => Adv.ite (Adv.pure _) (Adv.ite (Adv.pure _) (Adv.getS.bind fun _ => (Adv.ptr _).bind fun _ => Adv.modI _))

/-- **C02, C38.** `CeedOperatorApplyAdd` advances the state counter of every vector it changes, also when it fails. -/
theorem applyAdd_advances {op : Oper α} {S : Meaning α} (h : OpOK op S) (junk : Nat → Nat → α) {s : St α} (hg : Good op S s)
    (inv outv : VPtr) : (applyAdd op junk inv outv s).Post fun s' => Advances s.vecs s'.vecs := by
  unfold applyAdd
  split
  · unfold applyAddRef
    rw [M.bind_apply]
    obtain ⟨s1, e1, h1, h2, _⟩ := setup_ok h junk hg
    rw [e1, Out.bind_ok, M.bind_apply]
    show ((if s1.impl.idRstr then identityApply op inv outv else generalApply op junk inv outv) s1).Post _
    rw [← h2]
    split
    · rename_i hid
      rw [h1.idR] at hid
      simp only [Bool.and_eq_true] at hid
      have hn := (h.ident hid.1.1).2.1
      obtain ⟨r, l, h3, h4, _⟩ := HasRstr.out h (o := 0) (by omega)
      have : Adv (identityApply op inv outv) := by
        refine (Adv.restrictIn op 0 inv).bind fun _ => Adv.getS.bind fun _ => (Adv.ptr _).bind fun _ => ?_
        rw [h3]
        exact Adv.scatterInto h4 _ _
      exact this s1
    · exact Adv.generalApply h junk inv outv s1
  · exact Advances.refl _

theorem zeroVec_advances (p : VPtr) : Adv (zeroVec p : M (St α) Unit) := by
  intro s
  cases p with
  | null => trivial
  | none => exact Advances.refl _
  | vec i => exact Advances.update rfl (by show _ < (s.vecs i).state + 2; omega)

theorem zeros_advance (op : Oper α) (outv : VPtr) : Adv (M.loop op.nout (fun o => zeroVec ((op.out o).vec.ptr outv)) : M (St α) Unit) :=
  Adv.loop fun _ _ => zeroVec_advances _

theorem zeroVec_impl (p : VPtr) (s : St α) : (zeroVec p s).Post fun s' => s'.impl = s.impl := by
  cases p <;> trivial

theorem zero_good {op : Oper α} {S : Meaning α} {s : St α} (hg : Good op S s) {vecs' : Nat → LVec α}
    (ha : Advances s.vecs vecs') : Good op S { s with vecs := vecs' } := by
  refine ⟨?_, ha.vz hg.2⟩
  rcases hg.1 with hd | hi
  · exact Or.inl hd
  · exact Or.inr (hi.adv ha rfl)

/-- `CeedOperatorApply` advances the state counter of every vector it changes, also when it fails. -/
theorem apply_advances {op : Oper α} {S : Meaning α} (h : OpOK op S) (junk : Nat → Nat → α) {s : St α} (hg : Good op S s)
    (inv outv : VPtr) : (apply op junk inv outv s).Post fun s' => Advances s.vecs s'.vecs := by
  unfold apply
  rw [M.bind_apply]
  refine Out.Post.bind (zeros_advance op outv s) (fun _ => id) fun s1 _ e hs => ?_
  have hz := M.wp_ok (zero_wp (op := op) (s := s) (outv := outv) (R := False) (fun hh => hh.elim)) e
  have hg1 : Good op S s1 := by
    refine ⟨?_, hs.vz hg.2⟩
    rcases hg.1 with hd | hi
    · exact Or.inl (by rw [hz.1]; exact hd)
    · exact Or.inr (hi.adv hs hz.1)
  have := applyAdd_advances h junk hg1 inv outv
  cases e2 : applyAdd op junk inv outv s1 with
  | ok s2 x => rw [e2] at this; exact hs.trans this
  | err s2 x => rw [e2] at this; exact hs.trans this
  | ub => trivial

end Operator
end Verif
