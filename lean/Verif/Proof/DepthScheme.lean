import Verif.SpecDepth
import Verif.Props.Schedule

/-!
# Counting bootstraps one after another
-/

namespace Parm

variable {x y : Ctxt Term} {pc : Cloud}

/-- a scheme that only counts bootstraps one after another -/
abbrev depthScheme : Scheme where
  C := Nat
  add := max
  neg t := t
  mulC t _ := t
  addPt t _ := t
  pbs _ t := t + 1

theorem depthRel : SchemeRel freeScheme depthScheme fun t d => d = t.depth where
  add h g := by rw [h, g]; rfl
  neg h := h
  mulC _ h := h
  addPt _ h := h
  pbs _ h := by rw [h]; rfl

/-- `n` samples over `depthScheme` -/
def depthCt (n : Nat) : Ctxt Nat := List.replicate n ⟨.ct (0 : Nat), 32⟩

/-- the largest depth -/
def depthMax : Ctxt depthScheme.C → Nat
  | [] => 0
  | ⟨.ct t, _⟩ :: x => Nat.max t (depthMax x)
  | ⟨.triv _, _⟩ :: x => depthMax x

/-- depth, words of the result and bootstraps of a computation over `depthScheme`, run sequentially -/
def depthOf (m : M (Ctxt depthScheme.C)) : Option (Nat × Nat × Nat) :=
  match m (St.init Sched.seq) with
  | .ok (a, s) => some (depthMax a, a.length, s.pbs)
  | .error _ => none

theorem Samples.rel (h : Samples x) : CRel (fun (t : Term) (d : Nat) => d = t.depth) x (depthCt x.length) := by
  refine List.forall₂_of_length_eq_of_get (by simp [depthCt]) fun i hi hi' => ?_
  obtain ⟨hm, j, hc⟩ := h x[i] (List.getElem_mem hi)
  simp only [List.get_eq_getElem, depthCt, List.getElem_replicate]
  generalize x[i] = w at hm hc
  obtain ⟨c, m⟩ := w
  simp only at hm hc
  subst hm hc
  exact WRel.ct (R := fun (t : Term) (d : Nat) => d = t.depth) (c := .input j) (c' := (0 : Nat)) 32 rfl

theorem depthMax_eq {z : Ctxt Term} {z' : Ctxt depthScheme.C} (h : CRel (fun (t : Term) (d : Nat) => d = t.depth) z z') :
    depthMax z' = maxDepth z := by
  induction h with
  | nil => rfl
  | cons h _ ih => cases h with
    | ct m e => rw [depthMax, maxDepth, ih, e]
    | triv p m => rw [depthMax, maxDepth, ih]

theorem depth_of {Z : Prop} {m : M (Ctxt Term)} {m0 : M (Ctxt depthScheme.C)}
    (h : RelM Z (CRel fun (t : Term) (d : Nat) => d = t.depth) m m0) {d l n : Nat} (hu : depthOf m0 = some (d, l, n)) :
    ∃ z, Returns m z n ∧ z.length = l ∧ maxDepth z = d := by
  unfold depthOf at hu
  rcases h with ⟨a, a', k, h1, h2, h3, _⟩ | ⟨_, h⟩
  · obtain ⟨r, _, _, hr⟩ := h2 (St.init Sched.seq)
    rw [hr] at hu
    simp only [Option.some.injEq, Prod.mk.injEq, St.init, Nat.zero_add] at hu
    exact ⟨a, hu.2.2 ▸ h1, by rw [h3.length_eq, hu.2.1], (depthMax_eq h3).symm.trans hu.1⟩
  · obtain ⟨f, hf⟩ := h (St.init Sched.seq)
    rw [hf] at hu
    cases hu

theorem depth_agree (h1 : pc.msgMod = 32) (h2 : pc.carryMod = 1) : CloudAgree depthScheme pc unitCloud where
  msgMod := h1
  lut c l := by
    unfold evalLut5Float encryptWordTriv
    rw [h1, h2]
    rfl

end Parm
