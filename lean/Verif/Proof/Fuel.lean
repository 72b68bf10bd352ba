import Verif.Props.DepthExact
import Verif.Proof.ExactCost

/-!
# The recursion fuel of `mulImpl` does not matter, and costs of both methods of multiplication
-/

namespace Parm

set_option Elab.async false

/-- every execution of `m` that returns is one of `m'` -/
def Refines {α : Type} (m m' : M α) : Prop := ∀ s r, m s = .ok r → m' s = .ok r

section
variable {α β : Type}

theorem Refines.refl (m : M α) : Refines m m := fun _ _ h => h

theorem Refines.bind {m m' : M α} {f f' : α → M β} (h : Refines m m') (g : ∀ a, Refines (f a) (f' a)) :
    Refines (m >>= f) (m' >>= f') := by
  intro s r hr
  simp only [Bind.bind, StateT.bind, Except.bind] at hr ⊢
  cases hm : m s with
  | error e => rw [hm] at hr; cases hr
  | ok p =>
    rw [hm] at hr
    rw [h s p hm]
    exact g _ _ _ hr

theorem Refines.expect {m m' : M α} (h : Refines m m') : Refines m.expect m'.expect := by
  intro s r hr
  unfold M.expect at hr ⊢
  cases hm : m s with
  | error e => rw [hm] at hr; cases e <;> cases hr
  | ok p =>
    rw [hm] at hr
    rw [h s p hm]
    exact hr

theorem Refines.call {m m' : M α} (h : Refines m m') : Refines m.call m'.call := by
  unfold M.call M.analysed
  exact (Refines.refl _).bind fun _ => (Refines.refl _).bind fun _ => h.expect.bind fun _ => Refines.refl _

theorem Refines.par2 {a a' : M α} {b b' : M β} (ha : Refines a a') (hb : Refines b b') : Refines (par2 a b) (par2 a' b') := by
  unfold Parm.par2
  refine (Refines.refl _).bind fun ord => ?_
  split
  · exact ha.bind fun _ => hb.bind fun _ => Refines.refl _
  · exact hb.bind fun _ => ha.bind fun _ => Refines.refl _

theorem Refines.returns {m m' : M α} {a : α} {n : Nat} (h : Refines m m') (hr : Returns m a n) : Returns m' a n := by
  intro s
  obtain ⟨r, rep, h1, h2⟩ := hr s
  exact ⟨r, rep, h1, h _ _ h2⟩
end

variable {S : Scheme} {pc : Cloud}

theorem Refines.mulKaratsuba {f f' : Ctxt S.C → Ctxt S.C → M (Ctxt S.C)} (h : ∀ x y, Refines (f x y) (f' x y)) (x y : Ctxt S.C) :
    Refines (mulKaratsuba S pc f x y) (mulKaratsuba S pc f' x y) := by
  unfold Parm.mulKaratsuba
  split
  · exact Refines.refl _
  · refine Refines.bind (Refines.par2 ?_ ?_) fun _ => Refines.refl _
    · exact (Refines.par2 (h _ _) (h _ _)).bind fun _ => Refines.refl _
    · exact (Refines.refl _).bind fun _ => (h _ _).bind fun _ => Refines.refl _

theorem Refines.mulImpl : ∀ (fuel : Nat) (x y : Ctxt S.C), Refines (mulImpl S pc fuel x y) (mulImpl S pc (fuel + 1) x y)
  | 0, x, y => by
    unfold Parm.mulImpl
    dsimp only
    split_ifs <;> first | exact Refines.refl _ | (intro s r hr; cases hr)
  | fuel + 1, x, y => by
    rw [Parm.mulImpl, Parm.mulImpl.eq_def S pc (fuel + 1 + 1)]
    dsimp only
    split_ifs <;> first | exact Refines.refl _ | exact Refines.mulKaratsuba (fun a b => (Refines.mulImpl fuel a b).call) _ _

/-- Karatsuba's method at the lengths for which `mul` does not use it: depth, words of the result, bootstraps -/
def kara : Nat → Option (Nat × Nat × Nat)
  | 2 => some (9, 7, 34)
  | 3 => some (11, 10, 72)
  | 4 => some (11, 10, 79)
  | 5 => some (13, 13, 127)
  | 6 => some (13, 13, 140)
  | 7 => some (15, 16, 200)
  | 8 => some (15, 17, 221)
  | 9 => some (17, 19, 291)
  | 10 => some (17, 21, 320)
  | 11 => some (19, 23, 402)
  | 12 => some (19, 25, 437)
  | 13 => some (21, 27, 531)
  | 14 => some (21, 29, 572)
  | 15 => some (23, 31, 678)
  | 17 => some (25, 35, 843)
  | _ => none

/-- the product with Karatsuba's method at the outermost level -/
def karaDepth (n : Nat) : Option (Nat × Nat × Nat) :=
  depthOf (mulKaratsuba depthScheme unitCloud (ctMul depthScheme unitCloud) (depthCt n) (depthCt n))

private theorem k2 : karaDepth 2 = some (9, 7, 34) := by decide +kernel
private theorem k3 : karaDepth 3 = some (11, 10, 72) := by decide +kernel
private theorem k4 : karaDepth 4 = some (11, 10, 79) := by decide +kernel
private theorem k5 : karaDepth 5 = some (13, 13, 127) := by decide +kernel
private theorem k6 : karaDepth 6 = some (13, 13, 140) := by decide +kernel
private theorem k7 : karaDepth 7 = some (15, 16, 200) := by decide +kernel
private theorem k8 : karaDepth 8 = some (15, 17, 221) := by decide +kernel
private theorem k9 : karaDepth 9 = some (17, 19, 291) := by decide +kernel
private theorem k10 : karaDepth 10 = some (17, 21, 320) := by decide +kernel
private theorem k11 : karaDepth 11 = some (19, 23, 402) := by decide +kernel
private theorem k12 : karaDepth 12 = some (19, 25, 437) := by decide +kernel
private theorem k13 : karaDepth 13 = some (21, 27, 531) := by decide +kernel
private theorem k14 : karaDepth 14 = some (21, 29, 572) := by decide +kernel
private theorem k15 : karaDepth 15 = some (23, 31, 678) := by decide +kernel
private theorem k17 : karaDepth 17 = some (25, 35, 843) := by decide +kernel

theorem karaDepth_eq {n : Nat} (h2 : 2 ≤ n) (h : n < 16 ∨ n = 17) : karaDepth n = kara n ∧ ∃ d l k, kara n = some (d, l, k) ∧ 3 * n ^ 2 - 2 * n < k := by
  have : n ∈ [2, 3, 4, 5, 6, 7, 8, 9, 10, 11, 12, 13, 14, 15, 17] := by
    simp only [List.mem_cons, List.not_mem_nil, or_false]; omega
  simp only [List.mem_cons, List.not_mem_nil, or_false] at this
  rcases this with rfl | rfl | rfl | rfl | rfl | rfl | rfl | rfl | rfl | rfl | rfl | rfl | rfl | rfl | rfl
  · exact ⟨k2, _, _, _, rfl, by decide⟩
  · exact ⟨k3, _, _, _, rfl, by decide⟩
  · exact ⟨k4, _, _, _, rfl, by decide⟩
  · exact ⟨k5, _, _, _, rfl, by decide⟩
  · exact ⟨k6, _, _, _, rfl, by decide⟩
  · exact ⟨k7, _, _, _, rfl, by decide⟩
  · exact ⟨k8, _, _, _, rfl, by decide⟩
  · exact ⟨k9, _, _, _, rfl, by decide⟩
  · exact ⟨k10, _, _, _, rfl, by decide⟩
  · exact ⟨k11, _, _, _, rfl, by decide⟩
  · exact ⟨k12, _, _, _, rfl, by decide⟩
  · exact ⟨k13, _, _, _, rfl, by decide⟩
  · exact ⟨k14, _, _, _, rfl, by decide⟩
  · exact ⟨k15, _, _, _, rfl, by decide⟩
  · exact ⟨k17, _, _, _, rfl, by decide⟩

theorem mulKaratsuba_rel (h1 : pc.msgMod = 32) (h2 : pc.carryMod = 1) {x y : Ctxt S.C} (hx : AllEncrypted x) (hy : AllEncrypted y)
    (hl : x.length = y.length) :
    RelM (NoRel fun (_ : S.C) (_ : Nat) => True) (CRel fun (_ : S.C) (_ : Nat) => True) (mulKaratsuba S pc (ctMul S pc) x y)
      (mulKaratsuba depthScheme unitCloud (ctMul depthScheme unitCloud) (depthCt x.length) (depthCt x.length)) := by
  have h := (schemeRel_true S depthScheme).mulKaratsuba pc (f := ctMul S pc) (f' := ctMul depthScheme pc)
    (fun ha hb => (schemeRel_true S depthScheme).ctMul pc ha hb) hx.depthShape hy.depthShape
  have e : ctMul depthScheme pc = ctMul depthScheme unitCloud := by
    funext a b; exact (depth_agree h1 h2).mul a b
  rw [← hl, e, (depth_agree h1 h2).mulKaratsuba] at h
  exact h

/-- from 16 words on, other than 17, `mul` is Karatsuba's method -/
theorem mul_is_karatsuba (h1 : pc.msgMod = 32) (h2 : pc.carryMod = 1) {x y z : Ctxt S.C} (hx : AllEncrypted x) (hy : AllEncrypted y)
    (hl : x.length = y.length) (h16 : 16 ≤ x.length) (h17 : x.length ≠ 17) (h32 : x.length ≤ 32) {p : Nat}
    (hr : Returns (ctMul S pc x y) z p) : Returns (mulKaratsuba S pc (ctMul S pc) x y) z p := by
  have e : ctMul S pc x y = (mulKaratsuba S pc (fun a b => (mulImpl S pc 31 a b).call) x y).call := by
    unfold ctMul mulFuel
    rw [mulImpl]
    have ex : mulAlign S pc x y = (x, y) := by simp [mulAlign, hl]
    simp only [ex]
    rw [if_neg (by omega), if_neg (by omega), if_neg (by omega), if_pos h32]
  have hR := Refines.mulKaratsuba (pc := pc) (f := fun a b => (mulImpl S pc 31 a b).call) (f' := ctMul S pc)
    (fun a b => (Refines.mulImpl 31 a b).call) x y
  rw [e] at hr
  have hr' := hR.call.returns hr
  rcases mulKaratsuba_rel h1 h2 hx hy hl with ⟨a, a', n, g, _⟩ | ⟨g, _⟩
  · obtain ⟨rfl, rfl⟩ := hr'.unique g.call
    exact g
  · obtain ⟨f, hf⟩ := g.call (St.init .seq)
    obtain ⟨r, rep, _, hk⟩ := hr' (St.init .seq)
    rw [hf] at hk
    cases hk

end Parm
