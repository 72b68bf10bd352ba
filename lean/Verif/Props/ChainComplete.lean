import Verif.Proof.ChainLevels

/-!
# C83: the search for chains misses nothing with up to three additions

`OddChain` (`SpecSearch.lean`) is independent of the script: it only says which numbers can be reached when no shifted operand
exceeds the bound.  The bound `2^(LIMIT_WID-1)` is the one the script prints its warning for.
-/

namespace Parm

open ChainScript

theorem oddChain_tail {B z : Int} {vs : List Int} (h : OddChain B (z :: vs)) (hv : vs ≠ []) :
    OddChain B vs ∧ ∃ u ∈ vs, ∃ w ∈ vs, StepTo B u w z := by
  cases h with
  | one => exact absurd rfl hv
  | step h hx hy hε hδ s hs hB hpos =>
    exact ⟨h, _, hx, _, hy, _, _, hε, hδ, s, hs, hB, hpos, rfl⟩

theorem oddChain_single {B z : Int} (h : OddChain B [z]) : z = 1 := by
  cases h with
  | one => rfl
  | step h => cases h

theorem turn {u y x v : Int} (h : u = y ∨ u = x ∨ u = v) : u = v ∨ u = x ∨ u = y := by
  rcases h with h | h | h
  · exact .inr (.inr h)
  · exact .inr (.inl h)
  · exact .inl h

/-- found after as many rounds as the chain has additions -/
theorem found_at {limit : Nat} {z : Int} {vs : List Int} (hz : OddChain (2 ^ (limit - 1)) (z :: vs)) (hk : vs.length ≤ 3)
    {s : List (List AsChain) × Db} (h : run limit vs.length = some s) : z ∈ s.2.map (·.1) := by
  match vs, hk with
  | [], _ =>
    rw [oddChain_single hz]
    cases h
    simp
  | [x], _ =>
    obtain ⟨hx, u, hu, w, hw, hs⟩ := oddChain_tail hz (by simp)
    obtain rfl := oddChain_single hx
    simp only [List.mem_singleton] at hu hw
    subst hu hw
    obtain ⟨t0, e1, h0, r1, rfl⟩ := run_round h
    cases h0
    exact (keys1 r1).2 (in1' r1 hs)
  | [y, x], _ =>
    obtain ⟨hy, u, hu, w, hw, hs⟩ := oddChain_tail hz (by simp)
    obtain ⟨hx, u', hu', w', hw', hs'⟩ := oddChain_tail hy (by simp)
    obtain rfl := oddChain_single hx
    simp only [List.mem_singleton] at hu' hw'
    subst hu' hw'
    obtain ⟨t1, e2, h1, r2, rfl⟩ := run_round h
    obtain ⟨t0, e1, h0, r1, rfl⟩ := run_round h1
    cases h0
    simp only [List.mem_cons, List.not_mem_nil, or_false] at hu hw
    exact in2_keys ⟨r1, r2⟩ (in2 ⟨r1, r2⟩ (in1' r1 hs') hu.symm hw.symm hs)
  | [y, x, v], _ =>
    obtain ⟨hy, u, hu, w, hw, hs⟩ := oddChain_tail hz (by simp)
    obtain ⟨hx, u', hu', w', hw', hs'⟩ := oddChain_tail hy (by simp)
    obtain ⟨hv, u'', hu'', w'', hw'', hs''⟩ := oddChain_tail hx (by simp)
    obtain rfl := oddChain_single hv
    simp only [List.mem_singleton] at hu'' hw''
    subst hu'' hw''
    obtain ⟨t2, e3, h2, r3, rfl⟩ := run_round h
    obtain ⟨t1, e2, h1, r2, rfl⟩ := run_round h2
    obtain ⟨t0, e1, h0, r1, rfl⟩ := run_round h1
    cases h0
    simp only [List.mem_cons, List.not_mem_nil, or_false] at hu hw hu' hw'
    have i1 := in1' r1 hs''
    exact in3 ⟨r1, r2⟩ r3 i1 (in2 ⟨r1, r2⟩ i1 hu'.symm hw'.symm hs') (turn hu) (turn hw) hs

/-- **C83.**  For every limit and any number of rounds: a number that can be computed from 1 with at most three additions (and
not more than there are rounds), all numbers odd and positive and no shifted operand above `2^(LIMIT_WID-1)`, is found, and
every chain kept for it has at most that many additions. -/
theorem C83_complete {limit n : Nat} {rows : List (List AsChain)} {db : Db} (h : run limit n = some (rows, db)) {z : Int}
    {vs : List Int} (hz : OddChain (2 ^ (limit - 1)) (z :: vs)) (hk : vs.length ≤ 3) (hn : vs.length ≤ n) :
    ∃ cs, (z, cs) ∈ db ∧ cs ≠ [] ∧ ∀ c ∈ cs, c.length ≤ vs.length + 1 := by
  obtain ⟨m, rfl⟩ := Nat.exists_eq_add_of_le hn
  obtain ⟨s, hs⟩ := run_earlier _ _ h
  obtain ⟨e, he, rfl⟩ := List.mem_map.1 (found_at hz hk hs)
  obtain ⟨e', he', h1, h2⟩ := run_keeps _ hs m h e he
  obtain ⟨o1, ⟨k, o2⟩, o3⟩ := (run_ok _ h).db.2 e' he'
  obtain ⟨c, cs, hc⟩ := List.exists_cons_of_ne_nil ((run_ok _ hs).db.2 e he).1
  have hcl := run_short _ hs e he c (by rw [hc]; simp)
  rw [run_rows _ hs] at hcl
  have hck := o2 c (h2.subset (by rw [hc]; simp))
  exact ⟨e'.2, by rw [← h1]; exact he', o1, fun d hd => by have := o2 d hd; omega⟩

/-- **C83.**  Consequently the printed numbers of additions up to four (the script makes four rounds) are optimal: no such
chain within the bound is shorter than a kept one. -/
theorem C83_optimal {limit n : Nat} {rows : List (List AsChain)} {db : Db} (h : run limit n = some (rows, db)) {z : Int}
    {cs : List AsChain} (hm : (z, cs) ∈ db) {c : AsChain} (hc : c ∈ cs) (hl : c.length ≤ 5) {vs : List Int}
    (hz : OddChain (2 ^ (limit - 1)) (z :: vs)) : c.length ≤ vs.length + 1 := by
  by_contra hlt
  have h1 := run_short _ h _ hm c hc
  rw [run_rows _ h] at h1
  obtain ⟨cs', hm', _, hall⟩ := C83_complete h hz (by omega) (by omega)
  have : cs' = cs := by
    have := List.inj_on_of_nodup_map (run_ok _ h).db.1 hm' hm rfl
    exact (Prod.mk.inj this).2
  exact hlt (hall c (this ▸ hc))

/-- **C83.**  In a run of `variant.rb` as it is (four rounds) all chains kept are within reach of `C83_optimal`. -/
theorem C83_script {limit : Nat} {rows : List (List AsChain)} {db : Db} (h : run limit 4 = some (rows, db)) {z : Int}
    {cs : List AsChain} (hm : (z, cs) ∈ db) {c : AsChain} (hc : c ∈ cs) {vs : List Int}
    (hz : OddChain (2 ^ (limit - 1)) (z :: vs)) : c.length ≤ vs.length + 1 :=
  C83_optimal h hm hc (by have := run_short _ h _ hm c hc; rw [run_rows _ h] at this; exact this) hz

/-- 805, the number the comments of the script name for the need of overlapping digits: 5 = 1 + 4, 161 = 1 + 5·32,
805 = 161 + 161·4 -/
theorem chain805 : OddChain (2 ^ (13 - 1)) [805, 161, 5, 1] :=
  .step (x := 161) (y := 161) (ε := 1) (δ := 1)
    (.step (x := 1) (y := 5) (ε := 1) (δ := 1)
      (.step (x := 1) (y := 1) (ε := 1) (δ := 1) .one (by simp) (by simp) (.inl rfl) (.inl rfl) 2 (by norm_num) (by norm_num)
        (by norm_num))
      (by simp) (by simp) (.inl rfl) (.inl rfl) 5 (by norm_num) (by norm_num) (by norm_num))
    (by simp) (by simp) (.inl rfl) (.inl rfl) 2 (by norm_num) (by norm_num) (by norm_num)

/-- … is found by the script with its limit of 13 bits, with three additions at most -/
example : ∃ rows db, run 13 4 = some (rows, db) ∧ ∃ cs, ((805 : Int), cs) ∈ db ∧ cs ≠ [] ∧ ∀ c ∈ cs, c.length ≤ 4 := by
  obtain ⟨s, hs, _⟩ := run_full (limit := 13) (by norm_num) 4
  exact ⟨s.1, s.2, hs, C83_complete hs chain805 (by simp) (by simp)⟩

/-- A chain with four additions that the search cannot follow: 977 has a shorter chain of its own, so `[1, 17, 2065, 977]` is
not kept.  With a limit of 12 bits 4019 is not found (`limit-12_v4.log` has no line for it). -/
theorem chain4019 : OddChain (2 ^ (12 - 1)) [4019, 977, 2065, 17, 1] :=
  .step (x := 2065) (y := 977) (ε := 1) (δ := 1)
    (.step (x := 2065) (y := 17) (ε := 1) (δ := -1)
      (.step (x := 17) (y := 1) (ε := 1) (δ := 1)
        (.step (x := 1) (y := 1) (ε := 1) (δ := 1) .one (by simp) (by simp) (.inl rfl) (.inl rfl) 4 (by norm_num) (by norm_num)
          (by norm_num))
        (by simp) (by simp) (.inl rfl) (.inl rfl) 11 (by norm_num) (by norm_num) (by norm_num))
      (by simp) (by simp) (.inl rfl) (.inr rfl) 6 (by norm_num) (by norm_num) (by norm_num))
    (by simp) (by simp) (.inl rfl) (.inl rfl) 1 (by norm_num) (by norm_num) (by norm_num)

end Parm
