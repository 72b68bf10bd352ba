import Verif.Proof.Fuel
import Verif.Props.DepthExact

/-!
# The choice between the two methods of multiplication (C64)

`mul_impl` (`/repo/src/cloudovo/multiplication.rs:67-85`) multiplies by the schoolbook method below 16 words and
for 17, and by Karatsuba's otherwise.  The comment above it
(`/repo/src/cloudovo/multiplication.rs:36`) says: Karatsuba for lengths 14 or from 16 on.
-/

namespace Parm

variable {S : Scheme} {pc : Cloud} {x y : Ctxt S.C}

theorem AllEncrypted.notTriv (h : AllEncrypted x) (i : Nat) (hi : i < x.length) : x[i].isTriv = false := by
  obtain ⟨⟨c, hc⟩, _⟩ := h x[i] (List.getElem_mem hi)
  simp [Word.isTriv, hc]

/-- **C64.** The schoolbook method takes `3n² - 2n` bootstraps on encrypted operands of any length. -/
theorem C64_schoolbook (h : pc.msgMod * pc.carryMod = 32) (hx : AllEncrypted x) (hy : AllEncrypted y) (hl : x.length = y.length)
    (h2 : 2 ≤ x.length) : ∃ z, Returns (mulSchoolbook S pc x y) z (3 * x.length ^ 2 - 2 * x.length) ∧ z.length = 2 * x.length := by
  obtain ⟨z, k, hr, rfl, hz, _⟩ := mulSchoolbook_exact h hl h2 hx.notTriv hy.notTriv
  exact ⟨z, hr, hz⟩

/-- **C64.** At every length for which there is a choice, `mul` takes the fewest bootstraps of the two methods,
and Karatsuba's is strictly better exactly from 16 words on, but for 17. -/
theorem C64_choice (h1 : pc.msgMod = 32) (h2 : pc.carryMod = 1) (hx : AllEncrypted x) (hy : AllEncrypted y)
    (hl : x.length = y.length) (h3 : 2 ≤ x.length) (h32 : x.length ≤ 32) :
    ∃ z zs zk s k, Returns (mulSchoolbook S pc x y) zs s ∧ Returns (mulKaratsuba S pc (ctMul S pc) x y) zk k ∧
      Returns (ctMul S pc x y) z (min s k) ∧ s ≠ k ∧ (k < s ↔ 16 ≤ x.length ∧ x.length ≠ 17) := by
  obtain ⟨zs, hs, _⟩ := C64_schoolbook (by rw [h1, h2]) hx hy hl h3
  obtain ⟨d, l, p, z, e, hr, _⟩ := C56_mul_cost h1 h2 hx hy hl h32
  obtain ⟨d', l', p', e', hf⟩ := C56_formula.1 _ h32
  rw [e] at e'
  cases e'
  by_cases hc : x.length < 16 ∨ x.length = 17
  · rw [if_pos hc] at hf
    obtain ⟨g1, d, l, k, g2, g3⟩ := karaDepth_eq h3 hc
    obtain ⟨zk, hk, _⟩ := cost_of_depth (mulKaratsuba_rel h1 h2 hx hy hl) (g1.trans g2)
    refine ⟨z, zs, zk, _, k, hs, hk, ?_, by omega, by constructor <;> omega⟩
    rw [Nat.min_eq_left (by omega), ← hf]
    exact hr
  · rw [if_neg hc] at hf
    have hk := mul_is_karatsuba h1 h2 hx hy hl (by omega) (by omega) h32 hr
    refine ⟨z, zs, z, _, p, hs, hk, ?_, by omega, by constructor <;> omega⟩
    rw [Nat.min_eq_right (by omega)]
    exact hr

/-- **C64.** The rule stated in the comment would be worse: with 14 words Karatsuba's method takes 572
bootstraps, the schoolbook method 560, and with 17 words 843 against 833. -/
theorem C64_comment (h1 : pc.msgMod = 32) (h2 : pc.carryMod = 1) (hx : AllEncrypted x) (hy : AllEncrypted y)
    (hl : x.length = y.length) :
    (x.length = 14 → (∃ z, Returns (mulSchoolbook S pc x y) z 560) ∧ ∃ z, Returns (mulKaratsuba S pc (ctMul S pc) x y) z 572) ∧
    (x.length = 17 → (∃ z, Returns (mulSchoolbook S pc x y) z 833) ∧ ∃ z, Returns (mulKaratsuba S pc (ctMul S pc) x y) z 843) := by
  constructor <;> intro hn
  all_goals
    obtain ⟨zs, hs, _⟩ := C64_schoolbook (by rw [h1, h2]) hx hy hl (by omega)
    have hk := mulKaratsuba_rel h1 h2 hx hy hl
    rw [hn] at hs hk
  · obtain ⟨zk, hk, _⟩ := cost_of_depth hk (karaDepth_eq (n := 14) (by omega) (by omega)).1
    exact ⟨⟨zs, hs⟩, zk, hk⟩
  · obtain ⟨zk, hk, _⟩ := cost_of_depth hk (karaDepth_eq (n := 17) (by omega) (by omega)).1
    exact ⟨⟨zs, hs⟩, zk, hk⟩

/-- **C64.** The fewest bootstraps is not the shortest chain of bootstraps: with 15 words Karatsuba's method has depth 23,
the schoolbook method, which is chosen, 29. -/
theorem C64_depth {x y : Ctxt Term} (h1 : pc.msgMod = 32) (h2 : pc.carryMod = 1) (hx : Samples x) (hy : Samples y)
    (hl : x.length = y.length) (hn : x.length = 15) :
    (Yields (ctMul freeScheme pc x y) fun z => maxDepth z = 29) ∧
    Yields (mulKaratsuba freeScheme pc (ctMul freeScheme pc) x y) fun z => maxDepth z = 23 := by
  constructor
  · refine (C55_mul_exact h1 h2 hx hy hl (by omega)).mono fun z hz => ?_
    rw [hn] at hz
    injection hz with hz
    exact hz.symm
  · have h := depthRel.mulKaratsuba pc (f := ctMul freeScheme pc) (f' := ctMul depthScheme pc)
      (fun ha hb => depthRel.ctMul pc ha hb) hx.rel hy.rel
    have e : ctMul depthScheme pc = ctMul depthScheme unitCloud := by
      funext a b; exact (depth_agree h1 h2).mul a b
    rw [← hl, e, (depth_agree h1 h2).mulKaratsuba, hn] at h
    obtain ⟨z, r1, _, r3⟩ := depth_of h (karaDepth_eq (n := 15) (by omega) (by omega)).1
    exact ⟨z, _, r1, r3⟩

/-! Cases of the hypotheses -/

theorem Demo.encVec_all (l : List Int) : AllEncrypted (Demo.encVec l) := by
  intro w hw
  simp only [Demo.encVec, List.mem_map] at hw
  obtain ⟨i, _, rfl⟩ := hw
  exact ⟨⟨_, rfl⟩, rfl⟩

example : ∃ z, Returns (mulSchoolbook Demo.scheme Demo.cloud (Demo.encVec (List.replicate 40 1)) (Demo.encVec (List.replicate 40 (-1)))) z 4720 := by
  obtain ⟨z, h, _⟩ := C64_schoolbook (pc := Demo.cloud) rfl (Demo.encVec_all (List.replicate 40 1)) (Demo.encVec_all (List.replicate 40 (-1)))
    (by simp [Demo.encVec]) (by simp [Demo.encVec])
  rw [show (Demo.encVec (List.replicate 40 1)).length = 40 by simp [Demo.encVec]] at h
  exact ⟨z, h⟩

example : ∃ z k, Returns (mulKaratsuba Demo.scheme Demo.cloud (ctMul Demo.scheme Demo.cloud) (Demo.encVec (List.replicate 18 1))
    (Demo.encVec (List.replicate 18 (-1)))) z k ∧ k < 936 := by
  obtain ⟨z, zs, zk, s, k, h1, h2, h3, h4, h5⟩ := C64_choice (pc := Demo.cloud) rfl rfl (Demo.encVec_all (List.replicate 18 1))
    (Demo.encVec_all (List.replicate 18 (-1))) (by simp [Demo.encVec]) (by simp [Demo.encVec]) (by simp [Demo.encVec])
  obtain ⟨z', h, _⟩ := C64_schoolbook (pc := Demo.cloud) rfl (Demo.encVec_all (List.replicate 18 1)) (Demo.encVec_all (List.replicate 18 (-1)))
    (by simp [Demo.encVec]) (by simp [Demo.encVec])
  have e : (Demo.encVec (List.replicate 18 1)).length = 18 := by simp [Demo.encVec]
  rw [e] at h h5
  obtain ⟨_, rfl⟩ := h1.unique h
  exact ⟨zk, k, h2, h5.2 (by omega)⟩

example : Yields (mulKaratsuba freeScheme Demo.cloud (ctMul freeScheme Demo.cloud) (inputs 0 15) (inputs 15 15)) fun z => maxDepth z = 23 :=
  (C64_depth (pc := Demo.cloud) rfl rfl (samples_inputs 0 15) (samples_inputs 15 15) (by simp [inputs]) (by simp [inputs])).2

end Parm
