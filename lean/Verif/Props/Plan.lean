import Verif.Model.Plan
import Verif.Props.Choice

/-!
# The planning script against the code: property C67

The multiplication thresholds in `multiplication.rs` and the comments there come from
`scripts/optimal-multiplication`.  Its predictions are compared with the exact number of
bootstraps of the operations, for all lengths the operations accept (longer operands are
rejected, C20), all schemes, contents and schedules.
-/

namespace Parm

variable {S : Scheme} {pc : Cloud}

/-- **C67.** Up to 28 words the script predicts the number of bootstraps of a product exactly, as it says;
from 29 to 32 words it predicts too few: by 2, 2, 40 and 42. -/
theorem C67_mul_exact (h1 : pc.msgMod = 32) (h2 : pc.carryMod = 1) {x y : Ctxt S.C} (hx : AllEncrypted x)
    (hy : AllEncrypted y) (hl : x.length = y.length) (h0 : 1 ≤ x.length) (h32 : x.length ≤ 32) :
    ∃ z p, Returns (ctMul S pc x y) z p ∧ Plan.jm.at x.length ≤ p ∧
      (Plan.jm.at x.length = p ↔ x.length ≤ 28) ∧
      p ≤ Plan.jm.at x.length + 42 := by
  obtain ⟨d, l, p, z, e, hr, _⟩ := C56_mul_cost h1 h2 hx hy hl h32
  have key : ∀ n : Fin 33, 1 ≤ n.1 → Plan.jm.at n ≤ (mulTable.getD n (0, 0, 0)).2.2 ∧
      (Plan.jm.at n = (mulTable.getD n (0, 0, 0)).2.2 ↔ n.1 ≤ 28) ∧
      (mulTable.getD n (0, 0, 0)).2.2 ≤ Plan.jm.at n + 42 := by decide +kernel
  have := key ⟨x.length, by omega⟩ h0
  simp only [List.getD, e, Option.getD_some] at this
  exact ⟨z, p, hr, this⟩

/-- **C67.** The script chooses Karatsuba's method exactly where the code does, and there, and only there,
Karatsuba's method is the cheaper one. -/
theorem C67_mul_choice (h1 : pc.msgMod = 32) (h2 : pc.carryMod = 1) {x y : Ctxt S.C} (hx : AllEncrypted x)
    (hy : AllEncrypted y) (hl : x.length = y.length) (h3 : 2 ≤ x.length) (h32 : x.length ≤ 32) :
    ∃ z zs zk s k, Returns (mulSchoolbook S pc x y) zs s ∧ Returns (mulKaratsuba S pc (ctMul S pc) x y) zk k ∧
      Returns (ctMul S pc x y) z (min s k) ∧ s ≠ k ∧
      (k < s ↔ Plan.jm.divided.getD x.length false = true) := by
  obtain ⟨z, zs, zk, s, k, r1, r2, r3, r4, r5⟩ := C64_choice h1 h2 hx hy hl h3 h32
  have key : ∀ n : Fin 33, (Plan.jm.divided.getD n false = true) ↔ 16 ≤ n.1 ∧ n.1 ≠ 17 := by decide +kernel
  exact ⟨z, zs, zk, s, k, r1, r2, r3, r4, r5.trans (key ⟨x.length, by omega⟩).symm⟩

/-- **C67.** The script's formula for the schoolbook method is exact for every length from 2 on. -/
theorem C67_schoolbook (h : pc.msgMod * pc.carryMod = 32) {x y : Ctxt S.C} (hx : AllEncrypted x)
    (hy : AllEncrypted y) (hl : x.length = y.length) (h2 : 2 ≤ x.length) :
    ∃ z, Returns (mulSchoolbook S pc x y) z (Plan.m x.length) := by
  obtain ⟨z, hr, _⟩ := C64_schoolbook h hx hy hl h2
  refine ⟨z, ?_⟩
  have e : Plan.m x.length = 3 * x.length ^ 2 - 2 * x.length := by
    obtain ⟨n, hn⟩ : ∃ n, x.length = n + 1 := ⟨x.length - 1, by omega⟩
    rw [hn]
    unfold Plan.m Plan.M Plan.A
    simp only [Nat.add_sub_cancel]
    have : 3 * (n + 1) ^ 2 = 2 * (n + 1) + (1 * (n + 1) ^ 2 + 2 * (n + 1) * n) := by ring
    omega
  rw [e]; exact hr

/-- **C67.** For squares the script is exact for 1, 2, 3, 4, 6, 8 and 12 words only; it is at most 52 bootstraps
too low, and too high only for 5, 10 and 20 words (by at most 10).  Its warning names 7 words as the first
wrong length; it is 5. -/
theorem C67_squ (h1 : pc.msgMod = 32) (h2 : pc.carryMod = 1) {x : Ctxt S.C} (hx : AllEncrypted x)
    (h0 : 1 ≤ x.length) (h32 : x.length ≤ 32) :
    ∃ z p, Returns (ctSqu S pc x) z p ∧
      (Plan.js.at x.length = p ↔ x.length ∈ [1, 2, 3, 4, 6, 8, 12]) ∧
      (p < Plan.js.at x.length ↔ x.length ∈ [5, 10, 20]) ∧
      p ≤ Plan.js.at x.length + 52 ∧ Plan.js.at x.length ≤ p + 10 := by
  obtain ⟨d, l, p, z, e, hr, _⟩ := C56_squ_cost h1 h2 hx h32
  have key : ∀ n : Fin 33, 1 ≤ n.1 → (Plan.js.at n = (squTable.getD n (0, 0, 0)).2.2 ↔ n.1 ∈ [1, 2, 3, 4, 6, 8, 12]) ∧
      ((squTable.getD n (0, 0, 0)).2.2 < Plan.js.at n ↔ n.1 ∈ [5, 10, 20]) ∧
      (squTable.getD n (0, 0, 0)).2.2 ≤ Plan.js.at n + 52 ∧
      Plan.js.at n ≤ (squTable.getD n (0, 0, 0)).2.2 + 10 := by decide +kernel
  have := key ⟨x.length, by omega⟩ h0
  simp only [List.getD, e, Option.getD_some] at this
  exact ⟨z, p, hr, this⟩

/-- **C67.** The script's squaring plan always divides from 4 words on, as the code does; the schoolbook square
it weighs it against (not implemented) would, by its formula, always cost more than the code's square. -/
theorem C67_squ_choice (h1 : pc.msgMod = 32) (h2 : pc.carryMod = 1) {x : Ctxt S.C} (hx : AllEncrypted x)
    (h0 : 4 ≤ x.length) (h32 : x.length ≤ 32) :
    Plan.js.divided.getD x.length false = true ∧ ∃ z p, Returns (ctSqu S pc x) z p ∧ p < Plan.s x.length := by
  obtain ⟨d, l, p, z, e, hr, _⟩ := C56_squ_cost h1 h2 hx h32
  have key : ∀ n : Fin 33, 4 ≤ n.1 → Plan.js.divided.getD n false = true ∧
      (squTable.getD n (0, 0, 0)).2.2 < Plan.s n := by decide +kernel
  have := key ⟨x.length, by omega⟩ h0
  simp only [List.getD, e, Option.getD_some] at this
  exact ⟨this.1, z, p, hr, this.2⟩

/-- Case: the values printed in the script's own comments. -/
example : Plan.jm.at 2 = 8 ∧ Plan.jm.at 3 = 21 ∧ Plan.jm.at 4 = 40 ∧ Plan.jm.at 32 = 2575 ∧ Plan.js.at 7 = 87 := by
  decide +kernel

/-- Case: two encrypted ciphertexts of 29 words, the first length where the prediction fails. -/
example : ∃ z p, Returns (ctMul Demo.scheme Demo.cloud (Demo.encVec (List.replicate 29 1)) (Demo.encVec (List.replicate 29 (-1)))) z p ∧
    Plan.jm.at 29 < p := by
  obtain ⟨z, p, h, h1, h2, _⟩ := C67_mul_exact (pc := Demo.cloud) rfl rfl (Demo.encVec_all (List.replicate 29 1))
    (Demo.encVec_all (List.replicate 29 (-1))) (by simp [Demo.encVec]) (by simp [Demo.encVec]) (by simp [Demo.encVec])
  rw [show (Demo.encVec (List.replicate 29 1)).length = 29 by simp [Demo.encVec]] at h1 h2
  exact ⟨z, p, h, by omega⟩

end Parm
