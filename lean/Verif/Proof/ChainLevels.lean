import Verif.Proof.ChainWidth

/-!
# The first three rounds miss nothing (property C83)
-/

namespace Parm.ChainScript

theorem mem_tries {limit r : Nat} {q : Odd} (b b' : Bool) (h1 : 1 ≤ r) (h2 : r + q.wid ≤ limit) :
    (r, b, b') ∈ tries limit q := by
  unfold tries
  refine List.mem_flatMap.2 ⟨r, List.mem_range'_1.2 ⟨h1, by omega⟩, ?_⟩
  cases b <;> cases b' <;> simp

theorem tries_mem {limit : Nat} {q : Odd} {t : Nat × Bool × Bool} (h : t ∈ tries limit q) : 1 ≤ t.1 ∧ t.1 + q.wid ≤ limit := by
  unfold tries at h
  rw [List.mem_flatMap] at h
  obtain ⟨r, hr, ht⟩ := h
  rw [List.mem_range'_1] at hr
  have : t.1 = r := by fin_cases ht <;> rfl
  omega

theorem difi_prefix : ∀ {s o : AsChain} {w : List Int}, vals o = vals s ++ w → difi s o = s.length
  | [], o, w, _ => by unfold difi; rfl
  | a :: s, [], w, h => by simp [vals] at h
  | a :: s, b :: o, w, h => by
    simp only [vals, List.map_cons, List.cons_append, List.cons.injEq] at h
    unfold difi
    rw [if_neg (by simpa using h.1.symm), difi_prefix (w := w) (by simpa [vals] using h.2)]
    simp

theorem difi_prefix' : ∀ {s o : AsChain} {w : List Int}, vals s = vals o ++ w → difi s o = o.length
  | [], [], w, _ => by unfold difi; rfl
  | [], b :: o, w, h => by simp [vals] at h
  | a :: s, [], w, h => by unfold difi; rfl
  | a :: s, b :: o, w, h => by
    simp only [vals, List.map_cons, List.cons_append, List.cons.injEq] at h
    unfold difi
    rw [if_neg (by simpa using h.1), difi_prefix' (w := w) (by simpa [vals] using h.2)]
    simp

/-- a chain that continues the other one -/
theorem merge_up {s o : AsChain} {w : List Int} (hs : s ≠ []) (h : vals o = vals s ++ w) :
    ∃ m, merge s o = some m ∧ vals m = vals o := by
  have hd := difi_prefix h
  refine ⟨s ++ o.drop s.length, ?_, ?_⟩
  · unfold merge
    rw [hd, if_neg (by simpa using hs)]
  · have hl : s.length = (vals s).length := by simp [vals]
    unfold vals at h hl ⊢
    rw [List.map_append, List.map_drop, h, hl, List.drop_left]

/-- a chain that is continued by the other one -/
theorem merge_down {s o : AsChain} {w : List Int} (ho : o ≠ []) (h : vals s = vals o ++ w) :
    ∃ m, merge s o = some m ∧ vals m = vals s := by
  have hd := difi_prefix' h
  refine ⟨s ++ o.drop o.length, ?_, ?_⟩
  · unfold merge
    rw [hd, if_neg (by simpa using ho)]
  · simp

/-- two chains with one addition each -/
theorem merge_two {s o : AsChain} {x y : Int} (hs : vals s = [1, x]) (ho : vals o = [1, y]) (hxy : x ≠ y) :
    ∃ m, merge s o = some m ∧ vals m = [1, x, y] := by
  obtain ⟨a, b, rfl⟩ : ∃ a b, s = [a, b] := List.length_eq_two.1 (by simpa [vals] using congrArg List.length hs)
  obtain ⟨c, d, rfl⟩ : ∃ a b, o = [a, b] := List.length_eq_two.1 (by simpa [vals] using congrArg List.length ho)
  simp only [vals, List.map_cons, List.map_nil, List.cons.injEq, and_true] at hs ho
  have hd : difi [a, b] [c, d] = 1 := by
    unfold difi
    rw [if_neg (by simp [hs.1, ho.1])]
    unfold difi
    rw [if_pos (by rw [hs.2, ho.2]; exact hxy)]
  exact ⟨[a, b, d], by unfold merge; rw [hd]; rfl, by simp [vals, hs.1, hs.2, ho.2]⟩

theorem last1 {a o : Odd} (h : [a].getLast? = some o) : o = a := by simpa using h.symm

theorem last2 {a b o : Odd} (h : [a, b].getLast? = some o) : o = b := by simpa using h.symm

/-- the last element is not much wider than its value -/
def Narrow (c : AsChain) : Prop := ∀ o, c.getLast? = some o → (2 : Int) ^ o.wid < 4 * o.val

theorem fits {limit w s : Nat} {y : Int} (hw : (2 : Int) ^ w < 4 * y) (hs : 1 ≤ s) (h : y * 2 ^ s ≤ 2 ^ (limit - 1)) : s + w ≤ limit := by
  have hy : 0 < y := by
    have : (0 : Int) < 2 ^ w := by positivity
    omega
  have hl : 2 ≤ limit := by
    by_contra hl
    have e : limit - 1 = 0 := by omega
    rw [e, pow_zero] at h
    have := pow_one' hs
    nlinarith
  by_contra hlt
  have h1 : limit - 1 + 2 ≤ w + s := by omega
  have h2 := pow_le' h1
  have e1 : (2 : Int) ^ (limit - 1 + 2) = 4 * 2 ^ (limit - 1) := by rw [pow_add]; ring
  have e2 : (2 : Int) ^ (w + s) = 2 ^ w * 2 ^ s := pow_add ..
  have h3 : (0 : Int) < 2 ^ s := by positivity
  nlinarith

theorem sgn_of {ε : Int} (h : ε = 1 ∨ ε = -1) : ∃ b, sgn b = ε := by
  rcases h with rfl | rfl
  · exact ⟨true, rfl⟩
  · exact ⟨false, rfl⟩

/-- one addition of two chains at hand is tried -/
theorem Round.found {limit : Nat} {s : List (List AsChain) × Db} {e : List AsChain × Db} (R : Round limit s e)
    {cp cq : AsChain} (hp : cp ∈ s.1.flatten) (hq : cq ∈ s.1.flatten) {ms : List Int}
    (hm : ∃ m, merge cp cq = some m ∧ vals m = ms) (hl : ms.length = s.1.length) {x y ε δ : Int}
    (hx : (vals cp).getLast? = some x) (hy : (vals cq).getLast? = some y) (hn : Narrow cq) (hε : ε = 1 ∨ ε = -1)
    (hδ : δ = 1 ∨ δ = -1) {k : Nat} (hk : 1 ≤ k) (hB : y * 2 ^ k ≤ 2 ^ (limit - 1)) (hpos : 0 < ε * x + δ * (y * 2 ^ k)) :
    Hit (s.2.map (·.1)) e.1 (ms ++ [ε * x + δ * (y * 2 ^ k)]) (ε * x + δ * (y * 2 ^ k)) := by
  obtain ⟨m, hm, hv⟩ := hm
  obtain ⟨p, hp1, hp2⟩ := last_elem hx
  obtain ⟨q, hq1, hq2⟩ := last_elem hy
  obtain ⟨b, rfl⟩ := sgn_of hε
  obtain ⟨b', rfl⟩ := sgn_of hδ
  have hw := hn q hq1
  rw [hq2] at hw
  have hf := fits hw hk hB
  have e1 : (Odd.make b p b' q k).val = sgn b * x + sgn b' * (y * 2 ^ k) := by
    unfold Odd.make
    dsimp only
    rw [hp2, hq2]
    ring
  have := R.hit cp hp cq hq p q m hm (by rw [← hl, ← hv]; simp [vals]) hp1 hq1 (k, b, b') (mem_tries b b' hk hf)
  dsimp only at this
  rw [e1, hv] at this
  exact this hpos

/-- the three rounds -/
structure Three (limit : Nat) (e1 e2 : List AsChain × Db) : Prop where
  r1 : Round limit ([[[Odd.unit]]], [(1, [[Odd.unit]])]) e1
  r2 : Round limit ([[[Odd.unit]], e1.1], e1.2) e2

/-- 1 or found in the first round -/
def In1 (e1 : List AsChain × Db) (x : Int) : Prop := x = 1 ∨ ∃ c ∈ e1.1, vals c = [1, x]

section
variable {limit : Nat} {e1 e2 : List AsChain × Db}

theorem narrow_unit : Narrow [Odd.unit] := by
  intro o ho
  cases ho
  norm_num [Odd.unit]

/-- the first round -/
theorem in1 (R : Round limit ([[[Odd.unit]]], [(1, [[Odd.unit]])]) e1) {ε δ : Int} (hε : ε = 1 ∨ ε = -1)
    (hδ : δ = 1 ∨ δ = -1) {k : Nat} (hk : 1 ≤ k) (hB : 1 * 2 ^ k ≤ (2 : Int) ^ (limit - 1))
    (hpos : 0 < ε * 1 + δ * (1 * 2 ^ k)) : In1 e1 (ε * 1 + δ * (1 * 2 ^ k)) := by
  have := R.found (cp := [Odd.unit]) (cq := [Odd.unit]) (by simp) (by simp) (ms := [1]) ⟨[Odd.unit], rfl, rfl⟩ rfl rfl rfl
    narrow_unit hε hδ hk hB hpos
  rcases this with h | ⟨c, hc, hv⟩
  · exact .inl (List.mem_singleton.1 h)
  · exact .inr ⟨c, hc, hv⟩

theorem keys1 (R : Round limit ([[[Odd.unit]]], [(1, [[Odd.unit]])]) e1) {v : Int} : v ∈ e1.2.map (·.1) ↔ In1 e1 v := by
  constructor
  · intro h
    rcases R.new.ok.new v h with h | ⟨c, hc, hv⟩
    · left
      simpa using h
    · right
      obtain ⟨⟨t, rfl, ht⟩, hl⟩ := R.new.ok.row c hc
      refine ⟨_, hc, ?_⟩
      simp only [List.length_cons, List.length_nil, Nat.reduceAdd] at hl
      obtain ⟨o, rfl⟩ := List.length_eq_one_iff.1 (show t.length = 1 by omega)
      simp only [vals, List.map_cons, List.map_nil] at hv ⊢
      cases hv
      rfl
  · rintro (rfl | ⟨c, hc, hv⟩)
    · exact R.new.ok.old 1 (by simp)
    · obtain ⟨w, hw, e⟩ := R.new.ok.known c hc
      rw [hv] at e
      cases e
      exact hw

/-- the chains of the first row -/
theorem row1 (R : Round limit ([[[Odd.unit]]], [(1, [[Odd.unit]])]) e1) {c : AsChain} (hc : c ∈ e1.1) :
    ∃ o a, c = [Odd.unit, o] ∧ NearPow a o.val ∧ o.wid = a + 1 ∧ a + 1 ≤ limit := by
  obtain ⟨cp, hcp, cq, hcq, cpq, p, q, t, h1, h2, h3, h4, h5, h6, rfl⟩ := R.new.src c hc
  simp only [List.flatten_cons, List.flatten_nil, List.append_nil, List.mem_singleton] at hcp hcq
  subst hcp hcq
  cases h1
  cases h3
  cases h4
  obtain ⟨t1, t2⟩ := tries_mem h5
  have hlast := R.new.last _ hc _ (vals_last_append _ _)
  refine ⟨_, t.1, rfl, ⟨t1, ?_, by simpa using hlast, h6⟩, ?_, ?_⟩
  · revert h6
    have := pow_one' t1
    unfold Odd.make Odd.unit sgn
    dsimp only
    cases t.2.1 <;> cases t.2.2 <;> simp <;> omega
  · show max 1 (1 + t.1) = t.1 + 1
    omega
  · change t.1 + 1 ≤ limit at t2
    exact t2

theorem narrow1 (R : Round limit ([[[Odd.unit]]], [(1, [[Odd.unit]])]) e1) {c : AsChain} (hc : c ∈ e1.1) : Narrow c := by
  obtain ⟨o, a, rfl, h1, h2, _⟩ := row1 R hc
  intro o' ho
  rw [last2 ho, h2, pow_succ]
  have := h1.narrow
  linarith

theorem near1 (R : Round limit ([[[Odd.unit]]], [(1, [[Odd.unit]])]) e1) {b : Nat} (h1 : 1 ≤ b) (h2 : b + 1 ≤ limit) {v : Int}
    (hv : v = 2 ^ b + 1 ∨ v = 2 ^ b - 1) : v ∈ e1.2.map (·.1) := by
  have hb := pow_one' h1
  have hB : 1 * 2 ^ b ≤ (2 : Int) ^ (limit - 1) := by
    rw [one_mul]
    exact pow_le' (by omega)
  rw [keys1 R]
  rcases hv with rfl | rfl
  · have := in1 R (ε := 1) (δ := 1) (.inl rfl) (.inl rfl) h1 hB (by omega)
    rwa [show (1 : Int) * 1 + 1 * (1 * 2 ^ b) = 2 ^ b + 1 by ring] at this
  · have := in1 R (ε := -1) (δ := 1) (.inr rfl) (.inl rfl) h1 hB (by omega)
    rwa [show (-1 : Int) * 1 + 1 * (1 * 2 ^ b) = 2 ^ b - 1 by ring] at this

/-- the chains of the second row end in elements that are not much wider than their values -/
theorem narrow2 (T : Three limit e1 e2) {c : AsChain} (hc : c ∈ e2.1) : Narrow c := by
  obtain ⟨cp, hcp, cq, hcq, cpq, p, q, t, h1, h2, h3, h4, h5, h6, rfl⟩ := T.r2.new.src c hc
  have hlast := T.r2.new.last _ hc _ (vals_last_append _ _)
  intro o ho
  rw [List.getLast?_append_of_ne_nil _ (by simp)] at ho
  rw [last1 ho]
  clear ho
  simp only [List.flatten_cons, List.flatten_nil, List.append_nil, List.cons_append, List.nil_append,
    List.mem_cons] at hcp hcq
  dsimp only at hlast
  obtain ⟨t1, t2⟩ := tries_mem h5
  have hR := pow_one' t1
  have hn1 : (Odd.make t.2.1 p t.2.2 q t.1).val ≠ 1 := fun e => hlast ((keys1 T.r1).2 (.inl e))
  rcases hcp with rfl | hcp <;> rcases hcq with rfl | hcq
  · obtain ⟨m, hm, hv⟩ := merge_up (s := [Odd.unit]) (o := [Odd.unit]) (w := []) (by simp) rfl
    rw [h1] at hm
    cases hm
    have := congrArg List.length hv
    simp [vals, h2] at this
  · obtain ⟨o, a, rfl, g1, g2, g3⟩ := row1 T.r1 hcq
    obtain rfl := (last1 h3).symm
    obtain rfl := (last2 h4).symm
    have e : (Odd.make t.2.1 Odd.unit t.2.2 o t.1).wid = a + 1 + t.1 := by
      show max 1 (o.wid + t.1) = _
      omega
    rw [e]
    refine wide_a g1 t1 ?_
    have hx : 0 < o.val * 2 ^ t.1 := by have := g1.2.2.2; positivity
    revert h6
    unfold Odd.make Odd.unit sgn
    dsimp only
    cases t.2.1 <;> cases t.2.2 <;> simp <;> omega
  · obtain ⟨o, a, rfl, g1, g2, g3⟩ := row1 T.r1 hcp
    obtain rfl := (last2 h3).symm
    obtain rfl := (last1 h4).symm
    have e : (Odd.make t.2.1 o t.2.2 Odd.unit t.1).wid = max (a + 1) (1 + t.1) := by
      show max o.wid (1 + t.1) = _
      rw [g2]
    rw [e]
    change t.1 + 1 ≤ limit at t2
    refine wide_b g1 t1 h6 ?_ hn1 (fun b b1 b2 => ?_)
    · have hx := g1.2.2.2
      revert h6
      unfold Odd.make Odd.unit sgn
      dsimp only
      cases t.2.1 <;> cases t.2.2 <;> simp <;> omega
    · refine ⟨fun e => hlast (near1 T.r1 b1 ?_ (.inl e)), fun e => hlast (near1 T.r1 b1 ?_ (.inr e))⟩ <;> omega
  · obtain ⟨o, a, rfl, g1, g2, g3⟩ := row1 T.r1 hcp
    obtain ⟨o', a', rfl, g1', g2', g3'⟩ := row1 T.r1 hcq
    obtain rfl := (last2 h3).symm
    obtain rfl := (last2 h4).symm
    have hoo : o.val = o'.val := by
      by_contra hne
      obtain ⟨m, hm, hv⟩ := merge_two (s := [Odd.unit, o]) (o := [Odd.unit, o']) rfl rfl hne
      rw [h1] at hm
      cases hm
      have := congrArg List.length hv
      simp [vals, h2] at this
    have e : (Odd.make t.2.1 o t.2.2 o' t.1).wid = max (a + 1) (a' + 1 + t.1) := by
      show max o.wid (o'.wid + t.1) = _
      rw [g2, g2']
    rw [e]
    refine wide_c g1 (hoo ▸ g1') t1 ?_ ?_
    · have hx : 0 < o.val * 2 ^ t.1 := by have := g1.2.2.2; positivity
      have hx0 := g1.2.2.2
      have hx2 : 2 * o.val ≤ o.val * 2 ^ t.1 := by nlinarith
      revert h6
      unfold Odd.make sgn
      dsimp only
      rw [← hoo]
      cases t.2.1 <;> cases t.2.2 <;> simp <;> omega
    · intro e
      exact hlast ((keys1 T.r1).2 (.inr ⟨_, hcp, by rw [e]; rfl⟩))

/-- `v` is one addition away from `u` and `w` -/
def StepTo (B : Int) (u w v : Int) : Prop := ∃ ε δ : Int, (ε = 1 ∨ ε = -1) ∧ (δ = 1 ∨ δ = -1) ∧ ∃ k, 1 ≤ k ∧
  w * 2 ^ k ≤ B ∧ 0 < ε * u + δ * (w * 2 ^ k) ∧ v = ε * u + δ * (w * 2 ^ k)

theorem Round.stepTo {s : List (List AsChain) × Db} {e : List AsChain × Db} (R : Round limit s e)
    {cp cq : AsChain} (hp : cp ∈ s.1.flatten) (hq : cq ∈ s.1.flatten) {ms : List Int}
    (hm : ∃ m, merge cp cq = some m ∧ vals m = ms) (hl : ms.length = s.1.length) {x y v : Int}
    (hx : (vals cp).getLast? = some x) (hy : (vals cq).getLast? = some y) (hn : Narrow cq)
    (h : StepTo (2 ^ (limit - 1)) x y v) : Hit (s.2.map (·.1)) e.1 (ms ++ [v]) v := by
  obtain ⟨ε, δ, hε, hδ, k, hk, hB, hpos, rfl⟩ := h
  exact R.found hp hq hm hl hx hy hn hε hδ hk hB hpos

theorem in1' (R : Round limit ([[[Odd.unit]]], [(1, [[Odd.unit]])]) e1) {v : Int} (h : StepTo (2 ^ (limit - 1)) 1 1 v) :
    In1 e1 v := by
  obtain ⟨ε, δ, hε, hδ, k, hk, hB, hpos, rfl⟩ := h
  exact in1 R hε hδ hk hB hpos

/-- the second round -/
theorem in2 (T : Three limit e1 e2) {x u w y : Int} (hx : In1 e1 x) (hu : u = 1 ∨ u = x) (hw : w = 1 ∨ w = x)
    (h : StepTo (2 ^ (limit - 1)) u w y) : In1 e1 y ∨ ∃ c ∈ e2.1, vals c = [1, x, y] := by
  have key : Hit (e1.2.map (·.1)) e2.1 [1, x, y] y → In1 e1 y ∨ ∃ c ∈ e2.1, vals c = [1, x, y] :=
    fun h => h.imp (keys1 T.r1).1 id
  have hone : ([Odd.unit] : AsChain) ∈ (([[[Odd.unit]], e1.1] : List (List AsChain)), e1.2).1.flatten := by simp
  rcases hx with rfl | ⟨c, hc, hv⟩
  · have hu : u = 1 := by omega
    have hw : w = 1 := by omega
    subst hu hw
    exact .inl (in1' T.r1 h)
  · have hcm : c ∈ (([[[Odd.unit]], e1.1] : List (List AsChain)), e1.2).1.flatten := by simp [hc]
    have hne : c ≠ [] := by rintro rfl; simp [vals] at hv
    have hl : (vals c).getLast? = some x := by rw [hv]; rfl
    have hcn := narrow1 T.r1 hc
    rcases hu with rfl | rfl <;> rcases hw with rfl | rfl
    · exact .inl (in1' T.r1 h)
    · exact key (T.r2.stepTo (ms := [1, w]) hone hcm (hv ▸ merge_up (by simp) (w := [w]) (by rw [hv]; rfl)) rfl rfl hl hcn h)
    · exact key (T.r2.stepTo (ms := [1, u]) hcm hone (hv ▸ merge_down (by simp) (w := [u]) (by rw [hv]; rfl)) rfl hl rfl
        narrow_unit h)
    · exact key (T.r2.stepTo (ms := [1, w]) hcm hcm (hv ▸ merge_up hne (w := []) (by simp)) rfl hl hl hcn h)

theorem in2_keys (T : Three limit e1 e2) {x y : Int} (h : In1 e1 y ∨ ∃ c ∈ e2.1, vals c = [1, x, y]) :
    y ∈ e2.2.map (·.1) := by
  rcases h with h | ⟨c, hc, hv⟩
  · exact T.r2.new.ok.old y ((keys1 T.r1).2 h)
  · obtain ⟨w, hw, e⟩ := T.r2.new.ok.known c hc
    rw [hv] at e
    cases e
    exact hw

/-- the third round -/
theorem in3 (T : Three limit e1 e2) {e3 : List AsChain × Db} (R : Round limit ([[[Odd.unit]], e1.1, e2.1], e2.2) e3)
    {x y u w z : Int} (hx : In1 e1 x) (hy : In1 e1 y ∨ ∃ c ∈ e2.1, vals c = [1, x, y])
    (hu : u = 1 ∨ u = x ∨ u = y) (hw : w = 1 ∨ w = x ∨ w = y) (h : StepTo (2 ^ (limit - 1)) u w z) :
    z ∈ e3.2.map (·.1) := by
  have old : z ∈ e2.2.map (·.1) → z ∈ e3.2.map (·.1) := R.new.ok.old z
  have key : ∀ {ms}, Hit (e2.2.map (·.1)) e3.1 (ms ++ [z]) z → z ∈ e3.2.map (·.1) := by
    rintro ms (h | ⟨c, hc, hv⟩)
    · exact old h
    · obtain ⟨w, hw, e⟩ := R.new.ok.known c hc
      rw [hv, List.getLast?_append_of_ne_nil _ (by simp)] at e
      cases e
      exact hw
  have hone : ([Odd.unit] : AsChain) ∈ (([[[Odd.unit]], e1.1, e2.1] : List (List AsChain)), e2.2).1.flatten := by simp
  by_cases hux : (u = 1 ∨ u = x) ∧ (w = 1 ∨ w = x)
  · exact old (in2_keys T (in2 T hx hux.1 hux.2 h))
  rcases hy with hy | ⟨c, hc, hv⟩
  · by_cases huy : (u = 1 ∨ u = y) ∧ (w = 1 ∨ w = y)
    · exact old (in2_keys T (in2 T hy huy.1 huy.2 h))
    -- `x` and `y` are different numbers of the first round
    have hxy : x ≠ y := by rintro rfl; exact hux (by omega)
    rcases hx with rfl | ⟨cx, hcx, hvx⟩
    · exact absurd ⟨by omega, by omega⟩ huy
    rcases hy with rfl | ⟨cy, hcy, hvy⟩
    · exact absurd ⟨by omega, by omega⟩ hux
    have m1 : cx ∈ (([[[Odd.unit]], e1.1, e2.1] : List (List AsChain)), e2.2).1.flatten := by simp [hcx]
    have m2 : cy ∈ (([[[Odd.unit]], e1.1, e2.1] : List (List AsChain)), e2.2).1.flatten := by simp [hcy]
    have l1 : (vals cx).getLast? = some x := by rw [hvx]; rfl
    have l2 : (vals cy).getLast? = some y := by rw [hvy]; rfl
    have hor : (u = x ∧ w = y) ∨ (u = y ∧ w = x) := by omega
    rcases hor with ⟨rfl, rfl⟩ | ⟨rfl, rfl⟩
    · exact key (R.stepTo m1 m2 (merge_two hvx hvy hxy) rfl l1 l2 (narrow1 T.r1 hcy) h)
    · exact key (R.stepTo m2 m1 (merge_two hvy hvx (Ne.symm hxy)) rfl l2 l1 (narrow1 T.r1 hcx) h)
  · have hne : c ≠ [] := by rintro rfl; simp [vals] at hv
    have hcm : c ∈ (([[[Odd.unit]], e1.1, e2.1] : List (List AsChain)), e2.2).1.flatten := by simp [hc]
    have hl : (vals c).getLast? = some y := by rw [hv]; rfl
    have hcn := narrow2 T hc
    -- the chains for the other operand
    have other : ∀ {a : Int}, a = 1 ∨ a = x → ∃ d, d ∈ (([[[Odd.unit]], e1.1, e2.1] : List (List AsChain)), e2.2).1.flatten ∧
        d ≠ [] ∧ (vals d).getLast? = some a ∧ Narrow d ∧ ∃ t, vals c = vals d ++ t := by
      rintro a (rfl | rfl)
      · exact ⟨_, hone, by simp, rfl, narrow_unit, [x, y], by rw [hv]; rfl⟩
      · rcases hx with rfl | ⟨d, hd, hvd⟩
        · exact ⟨_, hone, by simp, rfl, narrow_unit, [1, y], by rw [hv]; rfl⟩
        · exact ⟨d, by simp [hd], by rintro rfl; simp [vals] at hvd, by rw [hvd]; rfl, narrow1 T.r1 hd, [y],
            by rw [hv, hvd]; rfl⟩
    by_cases hu1 : u = 1 ∨ u = x
    · have hw1 : w = y := by omega
      subst hw1
      obtain ⟨d, d1, d2, d3, d4, t, d5⟩ := other hu1
      exact key (R.stepTo d1 hcm (hv ▸ merge_up d2 d5) rfl d3 hl hcn h)
    · have hu2 : u = y := by omega
      subst hu2
      by_cases hw1 : w = 1 ∨ w = x
      · obtain ⟨d, d1, d2, d3, d4, t, d5⟩ := other hw1
        exact key (R.stepTo hcm d1 (hv ▸ merge_down d2 d5) rfl hl d3 d4 h)
      · have hw2 : w = u := by omega
        subst hw2
        exact key (R.stepTo hcm hcm (hv ▸ merge_up hne (w := []) (by simp)) rfl hl hl hcn h)

end

end Parm.ChainScript
