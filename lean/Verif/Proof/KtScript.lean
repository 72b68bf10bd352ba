import Verif.Model.KtScript
import Verif.Proof.Ensures
import Verif.Proof.Naf

/-!
# The prototype of the recoding and the Rust function do the same
-/

namespace Parm

theorem Returns.ensures {α : Type} {m : M α} {a : α} {n : Nat} (h : Returns m a n) : Ensures m fun r => r = a := by
  intro s r s' hr
  obtain ⟨_, _, _, h'⟩ := h s
  rw [h'] at hr
  cases hr
  rfl

namespace KtScript

theorem bit_eq (k i : Nat) : bit k i = bitAt k i := rfl

theorem setIdx_put (v : List Int) (j : Nat) (t : Int) : Ensures (setIdx v j t) fun r => r = put v j t := by
  unfold setIdx put
  split_ifs with h
  · exact Ensures.pure rfl
  · exact Ensures.panic _

theorem fill_sim {f : Nat → M Int} {g : Nat → Int} : ∀ (n j : Nat) (v : List Int),
    (∀ i, j ≤ i → i < j + n → Ensures (f i) fun r => r = g i) → Ensures (fillWhile f n j v) fun r => r = fill g n j v
  | 0, _, _, _ => Ensures.pure rfl
  | n + 1, j, v, h => by
    unfold fillWhile fill
    refine (h j (by omega) (by omega)).bind ?_
    rintro _ rfl
    refine (setIdx_put v j _).bind ?_
    rintro _ rfl
    exact fill_sim n (j + 1) _ fun i h1 h2 => h i (by omega) (by omega)

section
variable {bt pred : Nat → M Int} {k L : Nat} (hbit : ∀ i < L, Returns (bt i) (bitAt k i) 0)
  (hpred : ∀ i < L, Returns (pred i) (bitAt k i - 1) 0)
include hbit hpred

theorem step_sim {s : KtSt} (hx : s.x < L) (hw : s.w ≤ s.x) (hu : s.u ≤ s.x) :
    Ensures (ktStepG bt pred s) fun r => r = step k s ∧ r.x = s.x + 1 ∧ r.w ≤ r.x ∧ r.u ≤ r.x := by
  unfold ktStepG
  refine (hbit _ hx).ensures.bind ?_
  rintro _ rfl
  dsimp only
  obtain ⟨y, hy⟩ : ∃ y, y = if bitAt k s.x = 1 then s.y + 1 else s.y - 1 := ⟨_, rfl⟩
  have hs : (if bit k s.x = 1 then s.y + 1 else s.y - 1) = y := hy.symm
  rw [← hy]
  by_cases hm : s.m = 0
  · rw [if_pos hm]
    by_cases h1 : y ≥ s.z + 3
    · rw [if_pos h1]
      refine (fill_sim _ _ _ fun i _ hi => (hbit i (by omega)).ensures).bind ?_
      rintro _ rfl
      refine (setIdx_put _ _ _).bind ?_
      rintro _ rfl
      refine Ensures.pure ⟨?_, rfl, by dsimp only; omega, by dsimp only; omega⟩
      unfold step
      dsimp only
      rw [hs, if_pos hm, if_pos h1]
      rfl
    · rw [if_neg h1]
      by_cases h2 : y < s.z
      · rw [if_pos h2]
        refine Ensures.pure ⟨?_, rfl, by dsimp only; omega, by dsimp only; omega⟩
        unfold step
        dsimp only
        rw [hs, if_pos hm, if_neg h1, if_pos h2]
      · rw [if_neg h2]
        refine Ensures.pure ⟨?_, rfl, by dsimp only; omega, by dsimp only; omega⟩
        unfold step
        dsimp only
        rw [hs, if_pos hm, if_neg h1, if_neg h2]
  · rw [if_neg hm]
    by_cases h1 : s.v ≥ y + 3
    · rw [if_pos h1]
      refine (fill_sim (g := fun i => bit k i - 1) _ _ _ fun i _ hi => (hpred i (by omega)).ensures).bind ?_
      rintro _ rfl
      refine (setIdx_put _ _ _).bind ?_
      rintro _ rfl
      refine Ensures.pure ⟨?_, rfl, by dsimp only; omega, by dsimp only; omega⟩
      unfold step
      dsimp only
      rw [hs, if_neg hm, if_pos h1]
    · rw [if_neg h1]
      by_cases h2 : y > s.v
      · rw [if_pos h2]
        refine Ensures.pure ⟨?_, rfl, by dsimp only; omega, by dsimp only; omega⟩
        unfold step
        dsimp only
        rw [hs, if_neg hm, if_neg h1, if_pos h2]
      · rw [if_neg h2]
        refine Ensures.pure ⟨?_, rfl, by dsimp only; omega, by dsimp only; omega⟩
        unfold step
        dsimp only
        rw [hs, if_neg hm, if_neg h1, if_neg h2]

theorem loop_sim : ∀ (n : Nat) {s : KtSt}, s.x + n ≤ L → s.w ≤ s.x → s.u ≤ s.x →
    Ensures (ktLoopG bt pred n s) fun r => r = loop k n s ∧ r.x = s.x + n ∧ r.u ≤ r.x
  | 0, s, _, _, hu => Ensures.pure ⟨rfl, rfl, hu⟩
  | n + 1, s, h, hw, hu => by
    unfold ktLoopG loop
    refine (step_sim hbit hpred (by omega) hw hu).bind ?_
    rintro r ⟨rfl, h1, h2, h3⟩
    exact (loop_sim n (by omega) h2 h3).mono fun r hr => ⟨hr.1, by omega, hr.2.2⟩

theorem finish_sim {s : KtSt} (hx : s.x ≤ L) (hu : s.u ≤ s.x) : Ensures (ktFinishG bt pred s) fun r => r = finish k s := by
  unfold ktFinishG finish
  by_cases h : s.m = 0 ∨ (s.m = 1 ∧ s.v ≤ s.y)
  · rw [if_pos h, if_pos h]
    refine (fill_sim (g := fun i => bit k i - s.m) _ _ _ fun i _ hi => (hbit i (by omega)).ensures.bind ?_).bind ?_
    · rintro _ rfl
      exact Ensures.pure rfl
    rintro _ rfl
    refine (setIdx_put _ _ _).bind ?_
    rintro _ rfl
    exact setIdx_put _ _ _
  · rw [if_neg h, if_neg h]
    refine (fill_sim (g := fun i => bit k i - 1) _ _ _ fun i _ hi => (hpred i (by omega)).ensures).bind ?_
    rintro _ rfl
    refine (setIdx_put _ _ _).bind ?_
    rintro _ rfl
    refine (fill_sim (g := bit k) _ _ _ fun i _ hi => (hbit i (by omega)).ensures).bind ?_
    rintro _ rfl
    refine (setIdx_put _ _ _).bind ?_
    rintro _ rfl
    exact setIdx_put _ _ _

/-- the program only reads the bits below the leading one -/
theorem core_sim {lg : Nat → Nat} (h0 : k ≠ 0) (h1 : k ≠ 1) (hl : lg k = L) :
    Ensures (ktCoreG bt pred (L + 1)) fun r => r = kt lg k := by
  unfold ktCoreG kt
  rw [if_neg h0, if_neg h1]
  dsimp only
  rw [hl]
  refine (loop_sim hbit hpred (L + 1 - 1) (by dsimp only; omega) (le_refl _) (le_refl _)).bind ?_
  rintro s ⟨rfl, hx, hu⟩
  refine (finish_sim hbit hpred (by dsimp only at hx; omega) hu).bind ?_
  rintro _ rfl
  exact Ensures.pure rfl

end
end KtScript
end Parm
