import Verif.Proof.FastTableC

/-!
# Products of every pair of lengths: the bounds
-/

namespace Parm
namespace Fast

theorem good_all (l : Nat) (hl : l ≤ 32) : ∀ m ≤ l, good l m = true ∧ good m l = true := by
  match l, hl with
  | 0, _ => exact pair0
  | 1, _ => exact pair1
  | 2, _ => exact pair2
  | 3, _ => exact pair3
  | 4, _ => exact pair4
  | 5, _ => exact pair5
  | 6, _ => exact pair6
  | 7, _ => exact pair7
  | 8, _ => exact pair8
  | 9, _ => exact pair9
  | 10, _ => exact pair10
  | 11, _ => exact pair11
  | 12, _ => exact pair12
  | 13, _ => exact pair13
  | 14, _ => exact pair14
  | 15, _ => exact pair15
  | 16, _ => exact pair16
  | 17, _ => exact pair17
  | 18, _ => exact pair18
  | 19, _ => exact pair19
  | 20, _ => exact pair20
  | 21, _ => exact pair21
  | 22, _ => exact pair22
  | 23, _ => exact pair23
  | 24, _ => exact pair24
  | 25, _ => exact pair25
  | 26, _ => exact pair26
  | 27, _ => exact pair27
  | 28, _ => exact pair28
  | 29, _ => exact pair29
  | 30, _ => exact pair30
  | 31, _ => exact pair31
  | 32, _ => exact pair32
  | n + 33, h => omega

theorem good_pair {n m : Nat} (hn : n ≤ 32) (hm : m ≤ 32) : good n m = true := by
  rcases Nat.le_total m n with h | h
  · exact (good_all n hn m h).1
  · exact (good_all m hm n h).2

/-- quadratic weights of products -/
theorem mul_quad {pc : Cloud} (hm : pc.msgMod = 32) {x y : Ctxt Term} (hs : Samples (x ++ y)) (hi : Independent (x ++ y))
    (hx : x.length ≤ 32) (hy : y.length ≤ 32) : Boots (fun t => t.quadWeight ≤ 20) (ctMul freeScheme pc x y) := by
  obtain ⟨ρ, h⟩ := boots_of_passes hm hs hi (good_pair hx hy)
  exact fun s z s' e w hw t et u hu => quad_of_cb (h s z s' e w hw t et u hu)

/-- merged weights of products -/
theorem mul_merged {pc : Cloud} (hm : pc.msgMod = 32) {x y : Ctxt Term} (hs : Samples (x ++ y)) (hi : Independent (x ++ y))
    (hx : x.length ≤ 32) (hy : y.length ≤ 32) (he : exc x.length y.length = false) :
    Boots (fun t => t.mergedWeight ≤ 20) (ctMul freeScheme pc x y) := by
  have hg := good_pair hx hy
  unfold good at hg
  rw [he] at hg
  obtain ⟨ρ, h⟩ := boots_of_passes hm hs hi hg
  exact fun s z s' e w hw t et u hu => merged_of_cb (h s z s' e w hw t et u hu)

end Fast
end Parm
