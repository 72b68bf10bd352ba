import Verif.Model.Experiments
import Verif.Proof.ScalarCost
import Verif.Props.Encryption

/-!
# Property C61: the experiment on the number of additions
-/

namespace Parm

theorem mapInsert_length {V : Type} (k : Nat) (v : V) : ∀ (m : List (Nat × V)), (mapInsert k v m).length = m.length + 1
  | [] => rfl
  | (a, b) :: m => by
    unfold mapInsert
    split_ifs
    · rfl
    · simp [mapInsert_length k v m]

theorem addsStep_spec {b : Build} {k : Nat} (h0 : 0 < k) (hk : k < 2 ^ 12)
    (hkt : ∀ ds, Returns (koyamaTsuruokaVec .release k) ds 0 → Returns (koyamaTsuruokaVec b k) ds 0) (s : AddsSt) :
    ∃ s', Returns (addsStep b asc12 k s) s' 0 ∧
      (s.optTot ≤ s.naiTot → s'.optTot ≤ s'.naiTot) ∧
      s.valAds.length ≤ s'.valAds.length ∧ s'.valAds.length ≤ s.valAds.length + k % 2 := by
  unfold addsStep
  by_cases he : k % 2 = 0
  · rw [if_pos he]
    exact ⟨s, Returns.pure _, id, le_rfl, by omega⟩
  rw [if_neg he]
  obtain ⟨ds, d1, d2, d3, d4, d5, _, _⟩ := koyamaTsuruoka_spec (k := k) (by omega) (by omega)
  replace d1 := hkt ds d1
  obtain ⟨n, hn⟩ : ∃ n, n = (if ds.length < ascBitlen then ds.length else ascBitlen) := ⟨_, rfl⟩
  have hb : ascBitlen = 12 := rfl
  have hpos : 0 < ds.length := by
    cases ds with
    | nil => simp at d4
    | cons => simp
  have hn1 : 0 < n ∧ n ≤ 12 := by rw [hn]; split_ifs <;> omega
  have hw : ∀ d ∈ ds.take n, IsDigit d := fun d h => d2 d (List.mem_of_mem_take h)
  have hwl : (ds.take n).length ≤ 12 := by rw [List.length_take]; omega
  have hpar : value (ds.take n) % 2 = value ds % 2 ∧ (value ds % 2 = 1 → (ds.take n).headD 0 ≠ 0) := by
    obtain ⟨m, hm⟩ : ∃ m, n = m + 1 := ⟨n - 1, by omega⟩
    cases ds with
    | nil => simp at hpos
    | cons a ds =>
      rw [hm, List.take_succ_cons, value_cons, value_cons]
      refine ⟨by omega, fun h => ?_⟩
      simp only [List.headD_cons]
      omega
  rw [d3] at hpar
  have hodd : value (ds.take n) % 2 = 1 := by omega
  have hhead := hpar.2 (by omega)
  have habs := value_abs_lt hw
  have hp : 2 ^ (ds.take n).length ≤ 2 ^ 12 := Nat.pow_le_pow_right (by norm_num) hwl
  have hwin := ascLenOf_window hw hhead hodd (by omega)
  obtain ⟨ch, c1, c2, -, -⟩ := asc12_get (k := (value (ds.take n)).natAbs) (by omega) (by omega)
  have hhw := C46_bin_hw _ hw
  have hcv := (convertFromVec_ok b (show (ds.take n).length ≤ 63 by omega) hw).expect
  by_cases hc : (mapGet? s.valAds (value (ds.take n)).natAbs).isSome = true
  · refine ⟨s, d1.bind0 ?_, id, le_rfl, by omega⟩
    simp only [← hn]
    refine hcv.bind0 ?_
    rw [if_pos hc]
    exact Returns.pure _
  · refine ⟨{ valAds := mapInsert (value (ds.take n)).natAbs ((ds.take n).countP (· ≠ 0) - 1, ch.length) s.valAds,
              naiTot := s.naiTot + ((ds.take n).countP (· ≠ 0) - 1), optTot := s.optTot + ch.length },
              d1.bind0 ?_, ?_, ?_, ?_⟩
    · simp only [← hn]
      refine hcv.bind0 ?_
      rw [if_neg hc]
      refine hhw.expect.bind0 ?_
      have h1 : (ds.take n).countP (· ≠ 0) ≠ 0 := by
        unfold digitWeight at hwin; omega
      rw [if_neg h1]
      exact Returns.bind0 (Returns.pure _) ((Returns.mapIdx c1).bind0 (Returns.pure _))
    · intro h
      unfold digitWeight absU32 at hwin
      simp only
      omega
    · simp only [mapInsert_length]; omega
    · simp only [mapInsert_length]; omega

theorem addsLoop_spec : ∀ (n k : Nat) (s : AddsSt), 0 < k → n + k ≤ 2 ^ 12 →
    ∃ s', Returns (addsLoop .release asc12 n k s) s' 0 ∧ (s.optTot ≤ s.naiTot → s'.optTot ≤ s'.naiTot) ∧
      s'.valAds.length ≤ s.valAds.length + ((n + k) / 2 - k / 2)
  | 0, k, s, _, _ => ⟨s, Returns.pure _, id, by omega⟩
  | n + 1, k, s, h0, h => by
    obtain ⟨s1, a1, a2, a3, a4⟩ := addsStep_spec (b := .release) h0 (by omega) (fun _ h => h) s
    obtain ⟨s2, b1, b2, b3⟩ := addsLoop_spec n (k + 1) s1 (by omega) (by omega)
    refine ⟨s2, a1.bind0 b1, fun h => b2 (a2 h), by omega⟩

/-- **C61.** In the release build, the experiment ends, prints a number of additions with chains (`opt`) that does not
exceed the number without (`nai`), and counts at most one window per odd 12-bit number. -/
theorem C61_experiment : ∃ nai opt cnt, Returns (avgAdds .release asc12) (nai, opt, cnt) 0 ∧ opt ≤ nai ∧ cnt ≤ 2048 := by
  obtain ⟨s, h1, h2, h3⟩ := addsLoop_spec (2 ^ ascBitlen - 1) 1 { valAds := [], naiTot := 0, optTot := 0 } (by norm_num)
    (by decide)
  refine ⟨s.naiTot, s.optTot, s.valAds.length, h1.bind0 (Returns.pure _), h2 le_rfl, ?_⟩
  have e : ascBitlen = 12 := rfl
  rw [e] at h3
  simpa using h3

/-- **C61.** No window needs more additions with its chain than without. -/
theorem C61_window {w : List Int} (hd : ∀ d ∈ w, IsDigit d) (hl : w.length ≤ 12) (ho : value w % 2 = 1) :
    ∃ ch, (((value w).natAbs, ch) ∈ asc12) ∧ ch.length + 1 ≤ digitWeight w := by
  have hhead : w.headD 0 ≠ 0 := by
    cases w with
    | nil => simp [value_nil] at ho
    | cons a w => rw [value_cons] at ho; simp only [List.headD_cons]; omega
  have habs := value_abs_lt hd
  have hp : 2 ^ w.length ≤ 2 ^ 12 := Nat.pow_le_pow_right (by norm_num) hl
  have h := ascLenOf_window hd hhead ho (by omega)
  obtain ⟨ch, c1, c2⟩ := mapGet?_some (m := asc12) (k := (value w).natAbs) (by
    rw [asc12_keys, List.mem_map]
    exact ⟨(value w).natAbs / 2, by rw [List.mem_range]; omega, by omega⟩)
  refine ⟨ch, c2, ?_⟩
  unfold ascLenOf absU32 at h
  rw [c1, Option.getD_some] at h
  omega

theorem addsLoop_debug : ∀ (n k : Nat) (s : AddsSt), 0 < k → k ≤ 91 → 91 < n + k →
    Fails (addsLoop .debug asc12 n k s) (.panic .overflow)
  | 0, k, s, _, _, _ => by omega
  | n + 1, k, s, h0, h1, h2 => by
    unfold addsLoop
    by_cases h91 : k = 91
    · subst h91
      refine Fails.bind ?_
      unfold addsStep
      rw [if_neg (by decide)]
      exact C28_debug_panics.bind
    · rcases DebugLike.koyamaTsuruokaVec k with ⟨ds, e1, e2⟩ | h | ⟨f, -, hf⟩
      · obtain ⟨s1, a1, -⟩ := addsStep_spec (b := .debug) h0 (by omega) (fun ds' h => by rw [(h.unique e2).1]; exact e1) s
        exact a1.bind_fails (addsLoop_debug n (k + 1) s1 (by omega) (by omega) (by omega))
      · by_cases he : k % 2 = 0
        · have : Returns (addsStep .debug asc12 k s) s 0 := by
            unfold addsStep; rw [if_pos he]; exact Returns.pure _
          exact this.bind_fails (addsLoop_debug n (k + 1) s (by omega) (by omega) (by omega))
        · refine Fails.bind ?_
          unfold addsStep
          rw [if_neg he]
          exact h.bind
      · obtain ⟨ds, d1, -⟩ := koyamaTsuruoka_spec (k := k) (by omega) (by omega)
        exact absurd hf d1.not_fails

/-- **C61.** In a debug build the experiment panics with an overflow (at the latest at `k = 91`, `naf.rs:134`). -/
theorem C61_debug_panics : Fails (avgAdds .debug asc12) (.panic .overflow) :=
  (addsLoop_debug _ 1 _ (by norm_num) (by norm_num) (by decide)).bind

/-- Case: the window `-1 + 32 + 64 = 95` has weight three and a chain of two elements. -/
example : ∃ ch, (95, ch) ∈ asc12 ∧ ch.length + 1 ≤ digitWeight [-1, 0, 0, 0, 0, 1, 1] := by
  have h := C61_window (w := [-1, 0, 0, 0, 0, 1, 1]) (by simp [IsDigit]) (by decide) (by decide)
  have e : (value [-1, 0, 0, 0, 0, 1, 1]).natAbs = 95 := by decide
  rwa [e] at h

end Parm
