import Verif.Model.ChainScript
import Verif.Spec
import Verif.SpecChains
import Mathlib.Tactic.Linarith
import Mathlib.Tactic.Ring
import Mathlib.Data.List.Nodup
import Mathlib.Tactic.FinCases

/-!
# The chain search: every chain it keeps is right, and it never stops early
-/

namespace Parm.ChainScript

/-- the elements `os` can be computed one after another from the values `known` -/
def Built : List Int → List Odd → Prop
  | _, [] => True
  | known, o :: os => (∃ pp p qp q r, o.src = some (pp, p, qp, q, r) ∧ p ∈ known ∧ q ∈ known ∧ 1 ≤ r ∧
      o.val = sgn pp * p + sgn qp * q * 2 ^ r ∧ 0 < o.val ∧ o.val % 2 = 1) ∧ Built (known ++ [o.val]) os

theorem Built.mono : ∀ {os : List ChainScript.Odd} {known known' : List Int}, Built known os → known ⊆ known' → Built known' os
  | [], _, _, _, _ => trivial
  | o :: os, known, known', ⟨⟨pp, p, qp, q, r, h1, h2, h3, h4⟩, h5⟩, hs =>
    ⟨⟨pp, p, qp, q, r, h1, hs h2, hs h3, h4⟩, h5.mono (by
      intro x hx
      rcases List.mem_append.1 hx with h | h
      · exact List.mem_append.2 (Or.inl (hs h))
      · exact List.mem_append.2 (Or.inr h))⟩

theorem built_append : ∀ {a b : List ChainScript.Odd} {known : List Int},
    Built known (a ++ b) ↔ Built known a ∧ Built (known ++ vals a) b
  | [], b, known => by simp [Built, vals]
  | o :: a, b, known => by
    show (_ ∧ Built _ (a ++ b)) ↔ (_ ∧ Built _ a) ∧ _
    rw [built_append (a := a), and_assoc]
    simp [vals]

/-- a chain from the unit -/
def Good (c : AsChain) : Prop := ∃ t, c = ChainScript.Odd.unit :: t ∧ Built [1] t

theorem Good.ne {c : AsChain} (h : Good c) : c ≠ [] := by
  obtain ⟨t, rfl, _⟩ := h
  simp

theorem difi_spec : ∀ (s o : AsChain), vals (o.take (difi s o)) = vals (s.take (difi s o))
  | [], _ => by simp [difi]
  | _ :: _, [] => by simp [difi]
  | a :: s, b :: o => by
    unfold difi
    by_cases h : a.val = b.val
    · rw [if_neg (by simp [h])]
      have := difi_spec s o
      simp only [vals, List.take_succ_cons, List.map_cons] at *
      rw [this, h]
    · rw [if_pos h]
      rfl

theorem Good.merge {a b : AsChain} (ha : Good a) (hb : Good b) : ∃ c, merge a b = some c ∧ Good c ∧
    (∀ v ∈ vals a, v ∈ vals c) ∧ ∀ v ∈ vals b, v ∈ vals c := by
  obtain ⟨s, rfl, hs⟩ := ha
  obtain ⟨t, rfl, ht⟩ := hb
  have hd : difi (ChainScript.Odd.unit :: s) (ChainScript.Odd.unit :: t) = difi s t + 1 := by
    conv_lhs => unfold difi
    rw [if_neg (by simp)]
  have hpre := difi_spec s t
  unfold ChainScript.merge
  rw [hd, if_neg (by omega)]
  refine ⟨_, rfl, ⟨s ++ t.drop (difi s t), by simp, built_append.2 ⟨hs, ?_⟩⟩, ?_, ?_⟩
  · have := (built_append.1 (by rw [List.take_append_drop (difi s t) t]; exact ht :
      Built [1] (t.take (difi s t) ++ t.drop (difi s t)))).2
    refine this.mono fun x hx => ?_
    rw [hpre] at hx
    simp only [List.mem_append] at hx ⊢
    refine hx.imp id fun h => ?_
    simp only [vals, List.mem_map] at h ⊢
    obtain ⟨y, hy, rfl⟩ := h
    exact ⟨y, List.mem_of_mem_take hy, rfl⟩
  · intro v hv
    simp only [vals, List.map_append, List.mem_append] at hv ⊢
    exact Or.inl hv
  · intro v hv
    have e : vals (ChainScript.Odd.unit :: t) = 1 :: (vals (t.take (difi s t)) ++ vals (t.drop (difi s t))) := by
      show 1 :: List.map _ t = 1 :: (List.map _ _ ++ List.map _ _)
      rw [← List.map_append, List.take_append_drop]
    rw [e, hpre] at hv
    simp only [vals, List.map_cons, List.map_append, List.mem_append, List.mem_cons, List.drop_succ_cons] at hv ⊢
    rcases hv with h | h | h
    · exact Or.inl (Or.inl h)
    · refine Or.inl (Or.inr ?_)
      simp only [List.mem_map] at h ⊢
      obtain ⟨y, hy, rfl⟩ := h
      exact ⟨y, List.mem_of_mem_take hy, rfl⟩
    · exact Or.inr h

/-- values of a chain are odd and positive -/
theorem Built.vals_odd : ∀ {os : List ChainScript.Odd} {known : List Int}, Built known os →
    (∀ v ∈ known, 0 < v ∧ v % 2 = 1) → ∀ v ∈ known ++ vals os, 0 < v ∧ v % 2 = 1
  | [], known, _, h => by simpa [vals] using h
  | o :: os, known, ⟨⟨_, _, _, _, _, _, _, _, _, _, h1, h2⟩, h3⟩, h => by
    have := h3.vals_odd (known := known ++ [o.val]) (by
      intro v hv
      rcases List.mem_append.1 hv with hv | hv
      · exact h v hv
      · rw [List.mem_singleton] at hv
        subst hv
        exact ⟨h1, h2⟩)
    simpa [vals] using this

theorem Good.vals_odd {c : AsChain} (h : Good c) : ∀ v ∈ vals c, 0 < v ∧ v % 2 = 1 := by
  obtain ⟨t, rfl, ht⟩ := h
  exact ht.vals_odd (known := [1]) (by simp)

theorem last_mem {c : AsChain} {o : ChainScript.Odd} (h : c.getLast? = some o) : o.val ∈ vals c :=
  List.mem_map.2 ⟨o, List.mem_of_getLast? h, rfl⟩

/-- a candidate -/
theorem Good.extend {c : AsChain} (h : Good c) {p q : ChainScript.Odd} (hp : p.val ∈ vals c) (hq : q.val ∈ vals c)
    (pp qp : Bool) {r : Nat} (hr : 1 ≤ r) (hv : 0 < (Odd.make pp p qp q r).val) : Good (c ++ [Odd.make pp p qp q r]) := by
  have hodd := (h.vals_odd _ hp).2
  obtain ⟨t, rfl, ht⟩ := h
  refine ⟨t ++ [Odd.make pp p qp q r], by simp, built_append.2 ⟨ht, ⟨pp, p.val, qp, q.val, r, rfl, ?_, ?_, hr, rfl, hv, ?_⟩, trivial⟩⟩
  · simpa [vals, Odd.unit] using hp
  · simpa [vals, Odd.unit] using hq
  · show (sgn pp * p.val + sgn qp * q.val * 2 ^ r) % 2 = 1
    obtain ⟨d, rfl⟩ : ∃ d, r = d + 1 := ⟨r - 1, by omega⟩
    have e : sgn qp * q.val * 2 ^ (d + 1) = 2 * (sgn qp * q.val * 2 ^ d) := by ring
    rw [e]
    generalize sgn qp * q.val * 2 ^ d = z
    cases pp <;> simp only [sgn] <;> simp <;> omega

/-! ### The written table -/

theorem findIdx_known {known : List Int} {p : Int} (hp : p ∈ known) (v : Int) :
    ∃ i, (known ++ [v]).findIdx? (· = p) = some i ∧ known[i]? = some p := by
  have hlt : known.findIdx (fun x => decide (x = p)) < known.length := List.findIdx_lt_length_of_exists ⟨p, hp, by simp⟩
  refine ⟨known.findIdx (fun x => decide (x = p)), ?_, ?_⟩
  · rw [List.findIdx?_append, List.findIdx?_eq_some_of_exists ⟨p, hp, by simp⟩]
    rfl
  · rw [List.getElem?_eq_getElem hlt]
    have := List.findIdx_getElem (w := hlt) (p := fun x => decide (x = p))
    simpa using this

theorem Built.parse : ∀ {os : List ChainScript.Odd} {known : List Int}, Built known os → (∀ v ∈ known, 0 < v) → known ≠ [] →
    ∃ a, parseElems known os = some a ∧ a.length = os.length ∧ chainGo a known = (known ++ vals os).getLast?
  | [], known, _, _, _ => ⟨[], rfl, rfl, by simp [chainGo, vals]⟩
  | o :: os, known, ⟨⟨pp, p, qp, q, r, h1, h2, h3, h4, h5, h6, _⟩, h8⟩, hpos, _ => by
    obtain ⟨a, a1, a2, a3⟩ := h8.parse (by
      intro v hv
      rcases List.mem_append.1 hv with hv | hv
      · exact hpos v hv
      · rw [List.mem_singleton] at hv
        subst hv
        exact h6) (by simp)
    have hp0 := hpos p h2
    obtain ⟨i, i1, i2⟩ := findIdx_known h2 o.val
    obtain ⟨j, j1, j2⟩ := findIdx_known h3 o.val
    have habs : (((if pp = true then p else -p).natAbs : Nat) : Int) = p := by split_ifs <;> omega
    have hsg : decide ((if pp = true then p else -p) > 0) = pp := by
      cases pp
      · simp only [Bool.false_eq_true, if_false, decide_eq_false_iff_not]; omega
      · simp only [if_true, decide_eq_true_eq]; omega
    refine ⟨⟨pp, i, qp, j, r⟩ :: a, ?_, by simp [a2], ?_⟩
    · unfold parseElems
      simp only [h1, habs, i1, j1, a1, hsg, Option.bind_eq_bind, Option.bind_some]
    · unfold chainGo
      dsimp only
      rw [i2, j2]
      dsimp only
      have e : o.val = (if pp then p else -p) + (if qp then q * 2 ^ r else -(q * 2 ^ r)) := by
        rw [h5]
        unfold sgn
        split_ifs <;> ring
      rw [← e, a3]
      simp [vals]

/-- … and in the terms of C59 -/
theorem Built.chain : ∀ {os : List ChainScript.Odd} {known : List Int}, Built known os → Chain known.reverse →
    Chain (known ++ vals os).reverse
  | [], known, _, h => by simpa [vals] using h
  | o :: os, known, ⟨⟨pp, p, qp, q, r, _, h2, h3, _, h5, _, _⟩, h8⟩, h => by
    have := h8.chain (by
      rw [List.reverse_append, List.reverse_singleton, List.singleton_append, h5, mul_assoc]
      exact Chain.step h (List.mem_reverse.2 h2) (List.mem_reverse.2 h3) (by unfold sgn; split_ifs <;> simp)
        (by unfold sgn; split_ifs <;> simp) r)
    simpa [vals] using this

/-! ### The search -/

/-- what is kept under the value `v` -/
def EntryOk (v : Int) (cs : List AsChain) : Prop :=
  cs ≠ [] ∧ (∃ n, ∀ c ∈ cs, c.length = n) ∧ ∀ c ∈ cs, Good c ∧ (vals c).getLast? = some v

def DbOk (db : Db) : Prop := (db.map (·.1)).Nodup ∧ ∀ e ∈ db, EntryOk e.1 e.2

theorem get_none {db : Db} {v : Int} (h : db.get v = none) : v ∉ db.map (·.1) := by
  unfold Db.get at h
  rw [Option.map_eq_none_iff, List.find?_eq_none] at h
  intro hm
  obtain ⟨e, he, rfl⟩ := List.mem_map.1 hm
  exact h e he (by simp)

theorem get_some {db : Db} {v : Int} {cs : List AsChain} (h : db.get v = some cs) : (v, cs) ∈ db := by
  unfold Db.get at h
  rw [Option.map_eq_some_iff] at h
  obtain ⟨e, he, rfl⟩ := h
  have h1 := List.mem_of_find?_eq_some he
  have h2 := List.find?_some he
  simp only [decide_eq_true_eq] at h2
  rw [← h2]
  exact h1

/-- the state of one extension: chains found so far, and the database; `K` are the values known before -/
structure StOk (lvl : Nat) (K : List Int) (st : List AsChain × Db) : Prop where
  db : DbOk st.2
  row : ∀ c ∈ st.1, Good c ∧ c.length = lvl + 1
  old : ∀ v ∈ K, v ∈ st.2.map (·.1)
  new : ∀ v ∈ st.2.map (·.1), v ∈ K ∨ ∃ c ∈ st.1, (vals c).getLast? = some v
  known : ∀ c ∈ st.1, ∃ v ∈ st.2.map (·.1), (vals c).getLast? = some v

theorem addCand_ok {lvl : Nat} {K : List Int} {st : List AsChain × Db} (h : StOk lvl K st) {c : AsChain} {v : Int}
    (hc : Good c) (hl : c.length = lvl + 1) (hv : (vals c).getLast? = some v) :
    StOk lvl K (addCand c v st) ∧ v ∈ (addCand c v st).2.map (·.1) ∧
      ∀ w ∈ st.2.map (·.1), w ∈ (addCand c v st).2.map (·.1) := by
  obtain ⟨row, db⟩ := st
  have hrow : ∀ x ∈ row ++ [c], Good x ∧ x.length = lvl + 1 := by
    intro x hx
    rcases List.mem_append.1 hx with hx | hx
    · exact h.row x hx
    · rw [List.mem_singleton] at hx
      subst hx
      exact ⟨hc, hl⟩
  unfold addCand
  dsimp only
  cases hg : db.get v with
  | none =>
    have hn := get_none hg
    dsimp only
    refine ⟨⟨⟨?_, ?_⟩, hrow, ?_, ?_, ?_⟩, by simp, fun w hw => ?_⟩
    · rw [List.map_append, List.nodup_append]
      refine ⟨h.db.1, by simp, ?_⟩
      intro a ha b hb
      simp only [List.map_cons, List.map_nil, List.mem_singleton] at hb
      subst hb
      exact fun e => hn (e ▸ ha)
    · intro e he
      rcases List.mem_append.1 he with he | he
      · exact h.db.2 e he
      · rw [List.mem_singleton] at he
        subst he
        exact ⟨by simp, ⟨c.length, by simp⟩, by simpa using ⟨hc, hv⟩⟩
    · intro w hw
      rw [List.map_append]
      exact List.mem_append.2 (Or.inl (h.old w hw))
    · intro w hw
      rw [List.map_append] at hw
      rcases List.mem_append.1 hw with hw | hw
      · exact (h.new w hw).imp id fun ⟨x, hx, e⟩ => ⟨x, List.mem_append.2 (Or.inl hx), e⟩
      · simp only [List.map_cons, List.map_nil, List.mem_singleton] at hw
        subst hw
        exact Or.inr ⟨c, by simp, hv⟩
    · intro x hx
      rw [List.map_append]
      rcases List.mem_append.1 hx with hx | hx
      · obtain ⟨w, hw, e⟩ := h.known x hx
        exact ⟨w, List.mem_append.2 (Or.inl hw), e⟩
      · rw [List.mem_singleton] at hx
        subst hx
        exact ⟨v, by simp, hv⟩
    · rw [List.map_append]
      exact List.mem_append.2 (Or.inl hw)
  | some cs =>
    have hm := get_some hg
    have hmk : v ∈ db.map (·.1) := List.mem_map.2 ⟨_, hm, rfl⟩
    dsimp only
    by_cases hif : (cs.head?.map List.length = some c.length) ∧ vals c ∉ cs.map vals
    · rw [if_pos hif]
      have hk : (db.map fun e => if e.1 = v then (e.1, e.2 ++ [c]) else e).map (·.1) = db.map (·.1) := by
        rw [List.map_map]
        refine List.map_congr_left fun e _ => ?_
        simp only [Function.comp]
        split_ifs <;> rfl
      refine ⟨⟨⟨?_, ?_⟩, hrow, ?_, ?_, ?_⟩, ?_, ?_⟩
      · dsimp only
        rw [hk]
        exact h.db.1
      · intro e he
        obtain ⟨e0, he0, rfl⟩ := List.mem_map.1 he
        obtain ⟨o1, ⟨n, o2⟩, o3⟩ := h.db.2 e0 he0
        by_cases hev : e0.1 = v
        · rw [if_pos hev]
          have hcs : e0.2 = cs := by
            have := List.inj_on_of_nodup_map h.db.1 he0 hm hev
            rw [this]
          refine ⟨by simp, ⟨n, ?_⟩, ?_⟩
          · intro x hx
            rcases List.mem_append.1 hx with hx | hx
            · exact o2 x hx
            · rw [List.mem_singleton] at hx
              subst hx
              have h1 := hif.1
              rw [← hcs] at h1
              obtain ⟨y, ys, hy⟩ := List.exists_cons_of_ne_nil o1
              have := o2 y (by rw [hy]; simp)
              rw [hy] at h1
              simp only [List.head?_cons, Option.map_some, Option.some.injEq] at h1
              omega
          · intro x hx
            rcases List.mem_append.1 hx with hx | hx
            · exact o3 x hx
            · rw [List.mem_singleton] at hx
              subst hx
              exact ⟨hc, by rw [hv, hev]⟩
        · rw [if_neg hev]
          exact ⟨o1, ⟨n, o2⟩, o3⟩
      all_goals dsimp only; rw [hk]
      · exact h.old
      · intro w hw
        exact (h.new w hw).imp id fun ⟨x, hx, e⟩ => ⟨x, List.mem_append.2 (Or.inl hx), e⟩
      · intro x hx
        rcases List.mem_append.1 hx with hx | hx
        · exact h.known x hx
        · rw [List.mem_singleton] at hx
          subst hx
          exact ⟨v, hmk, hv⟩
      · exact hmk
      · exact fun w hw => hw
    · rw [if_neg hif]
      exact ⟨h, hmk, fun w hw => hw⟩

theorem tries_r {limit : Nat} {q : ChainScript.Odd} {t : Nat × Bool × Bool} (h : t ∈ tries limit q) : 1 ≤ t.1 := by
  unfold tries at h
  rw [List.mem_flatMap] at h
  obtain ⟨r, hr, ht⟩ := h
  rw [List.mem_range'_1] at hr
  fin_cases ht <;> exact hr.1

theorem vals_last_append (c : AsChain) (o : ChainScript.Odd) : (vals (c ++ [o])).getLast? = some o.val := by
  simp [vals]

/-- one round of the innermost loops keeps the invariant, loses no value, and adds all the values it tries -/
theorem tries_ok {lvl : Nat} {K : List Int} {cpq : AsChain} {p q : ChainScript.Odd} (hc : Good cpq) (hl : cpq.length = lvl)
    (hp : p.val ∈ vals cpq) (hq : q.val ∈ vals cpq) : ∀ (ts : List (Nat × Bool × Bool)) (st : List AsChain × Db),
    StOk lvl K st → (∀ t ∈ ts, 1 ≤ t.1) →
    StOk lvl K (ts.foldl (tryOne cpq p q) st) ∧ (∀ w ∈ st.2.map (·.1), w ∈ (ts.foldl (tryOne cpq p q) st).2.map (·.1)) ∧
      ∀ t ∈ ts, 0 < (Odd.make t.2.1 p t.2.2 q t.1).val →
        (Odd.make t.2.1 p t.2.2 q t.1).val ∈ (ts.foldl (tryOne cpq p q) st).2.map (·.1)
  | [], st, h, _ => ⟨h, fun _ hw => hw, by simp⟩
  | t :: ts, st, h, ht => by
    have h1 : StOk lvl K (tryOne cpq p q st t) ∧ (∀ w ∈ st.2.map (·.1), w ∈ (tryOne cpq p q st t).2.map (·.1)) ∧
        (0 < (Odd.make t.2.1 p t.2.2 q t.1).val →
          (Odd.make t.2.1 p t.2.2 q t.1).val ∈ (tryOne cpq p q st t).2.map (·.1)) := by
      unfold tryOne
      dsimp only
      by_cases hv : (Odd.make t.2.1 p t.2.2 q t.1).val > 0
      · rw [if_pos hv]
        have := addCand_ok h (hc.extend hp hq t.2.1 t.2.2 (ht t (by simp)) hv) (by simp [hl]) (vals_last_append _ _)
        exact ⟨this.1, this.2.2, fun _ => this.2.1⟩
      · rw [if_neg hv]
        exact ⟨h, fun _ hw => hw, fun h => absurd h hv⟩
    obtain ⟨a, b, c⟩ := tries_ok hc hl hp hq ts _ h1.1 (fun x hx => ht x (by simp [hx]))
    refine ⟨a, fun w hw => b w (h1.2.1 w hw), fun x hx hv => ?_⟩
    rcases List.mem_cons.1 hx with rfl | hx
    · exact b _ (h1.2.2 hv)
    · exact c x hx hv

theorem tryPair_ok {limit lvl : Nat} {K : List Int} {cp cq : AsChain} (hp : Good cp) (hq : Good cq) {st : List AsChain × Db}
    (h : StOk lvl K st) : ∃ st', tryPair limit lvl cp cq st = some st' ∧ StOk lvl K st' ∧
      (∀ w ∈ st.2.map (·.1), w ∈ st'.2.map (·.1)) ∧
      ∀ p q cpq, merge cp cq = some cpq → cpq.length = lvl → cp.getLast? = some p → cq.getLast? = some q →
        ∀ t ∈ tries limit q, 0 < (Odd.make t.2.1 p t.2.2 q t.1).val →
        (Odd.make t.2.1 p t.2.2 q t.1).val ∈ st'.2.map (·.1) := by
  obtain ⟨c, hc, hg, h1, h2⟩ := hp.merge hq
  obtain ⟨p, hpl⟩ : ∃ p, cp.getLast? = some p := ⟨_, List.getLast?_eq_some_getLast hp.ne⟩
  obtain ⟨q, hql⟩ : ∃ q, cq.getLast? = some q := ⟨_, List.getLast?_eq_some_getLast hq.ne⟩
  unfold tryPair
  rw [hc, hpl, hql]
  simp only [Option.bind_eq_bind, Option.bind_some]
  by_cases hl : c.length = lvl
  · rw [if_neg (by simpa using hl)]
    obtain ⟨a, b, d⟩ := tries_ok hg hl (h1 _ (last_mem hpl)) (h2 _ (last_mem hql)) (tries limit q) st h
      (fun t ht => tries_r ht)
    refine ⟨_, rfl, a, b, ?_⟩
    intro p' q' c' e1 _ e3 e4
    cases e1
    cases e3
    cases e4
    exact d
  · rw [if_pos hl]
    refine ⟨_, rfl, h, fun _ hw => hw, ?_⟩
    intro p' q' c' e1 e2
    cases e1
    exact absurd e2 hl

theorem pairs_ok {limit lvl : Nat} {K : List Int} : ∀ (ps : List (AsChain × AsChain)) (st : List AsChain × Db),
    (∀ x ∈ ps, Good x.1 ∧ Good x.2) → StOk lvl K st →
    ∃ st', ps.foldlM (fun st pq => tryPair limit lvl pq.1 pq.2 st) st = some st' ∧ StOk lvl K st' ∧
      (∀ w ∈ st.2.map (·.1), w ∈ st'.2.map (·.1)) ∧
      ∀ x ∈ ps, ∀ p q cpq, merge x.1 x.2 = some cpq → cpq.length = lvl → x.1.getLast? = some p → x.2.getLast? = some q →
        ∀ t ∈ tries limit q, 0 < (Odd.make t.2.1 p t.2.2 q t.1).val →
        (Odd.make t.2.1 p t.2.2 q t.1).val ∈ st'.2.map (·.1)
  | [], st, _, h => ⟨st, rfl, h, fun _ hw => hw, by simp⟩
  | y :: ps, st, hg, h => by
    obtain ⟨s1, e1, h1, k1, f1⟩ := tryPair_ok (limit := limit) (hg y (by simp)).1 (hg y (by simp)).2 h
    obtain ⟨s2, e2, h2, k2, f2⟩ := pairs_ok (limit := limit) ps s1 (fun x hx => hg x (by simp [hx])) h1
    refine ⟨s2, by simp only [List.foldlM_cons, e1, Option.bind_eq_bind, Option.bind_some, e2], h2,
      fun w hw => k2 w (k1 w hw), ?_⟩
    intro x hx p q cpq a b c d t ht hv
    rcases List.mem_cons.1 hx with rfl | hx
    · exact k2 _ (f1 p q cpq a b c d t ht hv)
    · exact f2 x hx p q cpq a b c d t ht hv

/-- the whole state between two extensions -/
structure RunOk (s : List (List AsChain) × Db) : Prop where
  db : DbOk s.2
  ne : s.1 ≠ []
  rows : ∀ i row, s.1[i]? = some row → ∀ c ∈ row, Good c ∧ c.length = i + 1
  rowsVal : ∀ row ∈ s.1, ∀ c ∈ row, ∃ v ∈ s.2.map (·.1), (vals c).getLast? = some v

/-- … and the rows are not empty, the last one holding the largest value of all -/
structure Full (s : List (List AsChain) × Db) : Prop where
  full : ∀ row ∈ s.1, row ≠ []
  top : ∃ row, s.1.getLast? = some row ∧ ∃ c ∈ row, ∃ v, (vals c).getLast? = some v ∧ ∀ w ∈ s.2.map (·.1), w ≤ v

/-- the pairs looped over -/
def pairs (chains : List (List AsChain)) : List (AsChain × AsChain) :=
  chains.flatten.flatMap fun cp => chains.flatten.map fun cq => (cp, cq)

theorem mem_pairs {chains : List (List AsChain)} {x : AsChain × AsChain} :
    x ∈ pairs chains ↔ x.1 ∈ chains.flatten ∧ x.2 ∈ chains.flatten := by
  unfold pairs
  rw [List.mem_flatMap]
  constructor
  · rintro ⟨a, ha, h⟩
    obtain ⟨b, hb, rfl⟩ := List.mem_map.1 h
    exact ⟨ha, hb⟩
  · rintro ⟨h1, h2⟩
    exact ⟨x.1, h1, List.mem_map.2 ⟨x.2, h2, rfl⟩⟩

theorem RunOk.good {s : List (List AsChain) × Db} (h : RunOk s) {c : AsChain} (hc : c ∈ s.1.flatten) : Good c := by
  obtain ⟨row, hr, hc⟩ := List.mem_flatten.1 hc
  obtain ⟨i, hi⟩ := List.mem_iff_getElem?.1 hr
  exact (h.rows i row hi c hc).1

theorem RunOk.last {s : List (List AsChain) × Db} (h : RunOk s) {row : List AsChain} (hr : s.1.getLast? = some row)
    {c : AsChain} (hc : c ∈ row) : c.length = s.1.length := by
  have hl : 0 < s.1.length := List.length_pos_iff.2 h.ne
  have := (h.rows (s.1.length - 1) row (by rw [← List.getLast?_eq_getElem?, hr]) c hc).2
  omega

theorem RunOk.start {s : List (List AsChain) × Db} (h : RunOk s) (lvl : Nat) : StOk lvl (s.2.map (·.1)) ([], s.2) :=
  ⟨h.db, by simp, fun _ hv => hv, fun _ hv => Or.inl hv, by simp⟩

theorem RunOk.step {s : List (List AsChain) × Db} (h : RunOk s) {e : List AsChain × Db}
    (he : StOk s.1.length (s.2.map (·.1)) e) : RunOk (s.1 ++ [e.1], e.2) := by
  refine ⟨he.db, by simp, ?_, ?_⟩
  · intro i row hi c hc
    dsimp only at hi
    rcases Nat.lt_or_ge i s.1.length with hlt | hge
    · rw [List.getElem?_append_left hlt] at hi
      exact h.rows i row hi c hc
    · rw [List.getElem?_append_right hge, List.getElem?_singleton] at hi
      split_ifs at hi with h0
      cases hi
      have := he.row c hc
      exact ⟨this.1, by omega⟩
  · intro row hr c hc
    rcases List.mem_append.1 hr with hr | hr
    · obtain ⟨v, hv, e1⟩ := h.rowsVal row hr c hc
      exact ⟨v, he.old v hv, e1⟩
    · rw [List.mem_singleton] at hr
      subst hr
      exact he.known c hc

theorem RunOk.extend {limit : Nat} {s : List (List AsChain) × Db} (h : RunOk s) {e : List AsChain × Db}
    (he : extend limit s.1 s.2 = some e) : RunOk (s.1 ++ [e.1], e.2) := by
  unfold ChainScript.extend at he
  split_ifs at he
  simp only [Option.bind_eq_bind, Option.bind_eq_some_iff] at he
  obtain ⟨row, hr, c, hc, he⟩ := he
  rw [h.last hr (List.mem_of_getLast? hc)] at he
  obtain ⟨st, h1, h2, _⟩ := pairs_ok (limit := limit) (lvl := s.1.length) (pairs s.1) ([], s.2)
    (fun x hx => ⟨h.good (mem_pairs.1 hx).1, h.good (mem_pairs.1 hx).2⟩) (h.start _)
  unfold pairs at h1
  rw [h1] at he
  cases he
  exact h.step h2

theorem runOk_init : RunOk ([[[ChainScript.Odd.unit]]], [(1, [[ChainScript.Odd.unit]])]) := by
  have hg : Good [ChainScript.Odd.unit] := ⟨[], rfl, trivial⟩
  refine ⟨⟨by simp, ?_⟩, by simp, ?_, ?_⟩
  · intro e he
    rw [List.mem_singleton] at he
    subst he
    exact ⟨by simp, ⟨1, by simp⟩, by simpa using ⟨hg, rfl⟩⟩
  · intro i row hi c hc
    dsimp only at hi
    rw [List.getElem?_singleton] at hi
    split_ifs at hi with h0
    cases hi
    rw [List.mem_singleton] at hc
    subst hc
    exact ⟨hg, by simp [h0]⟩
  · intro row hr c hc
    rw [List.mem_singleton] at hr
    subst hr
    rw [List.mem_singleton] at hc
    subst hc
    exact ⟨1, by simp, rfl⟩

theorem run_ok {limit : Nat} : ∀ (n : Nat) {s : List (List AsChain) × Db}, run limit n = some s → RunOk s
  | 0, s, h => by
    cases h
    exact runOk_init
  | n + 1, s, h => by
    unfold run at h
    simp only [Option.bind_eq_bind, Option.bind_eq_some_iff] at h
    obtain ⟨t, ht, e, he, h⟩ := h
    cases h
    exact (run_ok n ht).extend he

/-! ### It never raises -/

theorem RunOk.wf {s : List (List AsChain) × Db} (h : RunOk s) (hf : Full s) : wellFormed s.1 = true := by
  unfold wellFormed
  rw [List.all_eq_true]
  rintro ⟨row, i⟩ hx
  rw [List.mem_zipIdx_iff_getElem?] at hx
  simp only [Bool.and_eq_true, Bool.not_eq_true', List.isEmpty_eq_false_iff, List.all_eq_true, beq_iff_eq]
  exact ⟨hf.full row (List.mem_iff_getElem?.2 ⟨i, hx⟩), fun c hc => (h.rows i row hx c hc).2⟩

/-- the element at the end of a chain ending in `v` -/
theorem last_elem {c : AsChain} {v : Int} (h : (vals c).getLast? = some v) : ∃ o, c.getLast? = some o ∧ o.val = v := by
  unfold vals at h
  rw [List.getLast?_map, Option.map_eq_some_iff] at h
  exact h

theorem exists_max : ∀ (l : List AsChain) (_ : l ≠ []) (_ : ∀ c ∈ l, c ≠ []),
    ∃ c ∈ l, ∃ v, (vals c).getLast? = some v ∧ ∀ x ∈ l, ∀ w, (vals x).getLast? = some w → w ≤ v
  | [], h, _ => absurd rfl h
  | [c], _, hc => by
    obtain ⟨v, hv⟩ : ∃ v, (vals c).getLast? = some v :=
      ⟨_, List.getLast?_eq_some_getLast (by simpa [vals] using hc c (by simp))⟩
    refine ⟨c, by simp, v, hv, ?_⟩
    intro x hx w hw
    rw [List.mem_singleton] at hx
    subst hx
    rw [hv] at hw
    cases hw
    exact le_refl _
  | c :: d :: l, _, hc => by
    obtain ⟨y, hy, v, hv, hm⟩ := exists_max (d :: l) (by simp) (fun x hx => hc x (by simp [hx]))
    obtain ⟨u, hu⟩ : ∃ v, (vals c).getLast? = some v :=
      ⟨_, List.getLast?_eq_some_getLast (by simpa [vals] using hc c (by simp))⟩
    rcases le_total u v with h | h
    · refine ⟨y, by simp [hy], v, hv, ?_⟩
      intro x hx w hw
      rcases List.mem_cons.1 hx with rfl | hx
      · rw [hu] at hw
        cases hw
        exact h
      · exact hm x hx w hw
    · refine ⟨c, by simp, u, hu, ?_⟩
      intro x hx w hw
      rcases List.mem_cons.1 hx with rfl | hx
      · rw [hu] at hw
        cases hw
        exact le_refl _
      · exact le_trans (hm x hx w hw) h

theorem merge_unit {c : AsChain} (h : Good c) : merge c [ChainScript.Odd.unit] = some c := by
  obtain ⟨t, rfl, _⟩ := h
  have hd : difi (ChainScript.Odd.unit :: t) [ChainScript.Odd.unit] = 1 := by
    unfold difi
    rw [if_neg (by simp)]
    cases t <;> rfl
  unfold merge
  rw [hd]
  simp

/-- the first row always is the unit alone -/
theorem run_unit {limit : Nat} : ∀ (n : Nat) {s : List (List AsChain) × Db}, run limit n = some s →
    [ChainScript.Odd.unit] ∈ s.1.flatten
  | 0, s, h => by
    cases h
    simp
  | n + 1, s, h => by
    unfold run at h
    simp only [Option.bind_eq_bind, Option.bind_eq_some_iff] at h
    obtain ⟨t, ht, e, he, h⟩ := h
    cases h
    rw [List.flatten_append]
    exact List.mem_append.2 (Or.inl (run_unit n ht))

theorem RunOk.extend_full {limit : Nat} (hlim : 2 ≤ limit) {s : List (List AsChain) × Db} (h : RunOk s) (hf : Full s)
    (hu : [ChainScript.Odd.unit] ∈ s.1.flatten) : ∃ e, ChainScript.extend limit s.1 s.2 = some e ∧ Full (s.1 ++ [e.1], e.2) := by
  obtain ⟨row, hr, c, hc, v, hv, hmax⟩ := hf.top
  obtain ⟨l, hl⟩ : ∃ l, row.getLast? = some l := ⟨_, List.getLast?_eq_some_getLast (List.ne_nil_of_mem hc)⟩
  obtain ⟨st, h1, h2, _, h4⟩ := pairs_ok (limit := limit) (lvl := s.1.length) (pairs s.1) ([], s.2)
    (fun x hx => ⟨h.good (mem_pairs.1 hx).1, h.good (mem_pairs.1 hx).2⟩) (h.start _)
  have hcm : c ∈ s.1.flatten := List.mem_flatten.2 ⟨row, List.mem_of_getLast? hr, hc⟩
  obtain ⟨p, hp, hpv⟩ := last_elem hv
  have hpos : 0 < v := (h.good hcm).vals_odd v (List.mem_of_getLast? hv) |>.1
  -- the value `v + 2` is found
  have hnew : v + 2 ∈ st.2.map (·.1) := by
    have := h4 (c, [ChainScript.Odd.unit]) (mem_pairs.2 ⟨hcm, hu⟩) p ChainScript.Odd.unit c (merge_unit (h.good hcm))
      (h.last hr hc) hp rfl (1, true, true) (by
        unfold tries
        refine List.mem_flatMap.2 ⟨1, List.mem_range'_1.2 ⟨le_refl _, ?_⟩, by simp⟩
        show 1 < 1 + (limit - 1)
        omega)
    have e : (Odd.make true p true ChainScript.Odd.unit 1).val = v + 2 := by
      simp [Odd.make, sgn, ChainScript.Odd.unit, hpv]
    rw [e] at this
    exact this (by omega)
  have hrow : st.1 ≠ [] := by
    intro h0
    rcases h2.new _ hnew with hk | ⟨x, hx, _⟩
    · have := hmax _ hk
      omega
    · rw [h0] at hx
      simp at hx
  refine ⟨st, ?_, ?_, ?_⟩
  · unfold ChainScript.extend
    rw [if_pos (h.wf hf)]
    simp only [Option.bind_eq_bind, hr, hl, Option.bind_some]
    rw [h.last hr (List.mem_of_getLast? hl)]
    exact h1
  · intro r hr
    rcases List.mem_append.1 hr with hr | hr
    · exact hf.full r hr
    · rw [List.mem_singleton] at hr
      subst hr
      exact hrow
  · obtain ⟨x, hx, u, hu, hm⟩ := exists_max st.1 hrow (fun c hc => (h2.row c hc).1.ne)
    refine ⟨st.1, by simp, x, hx, u, hu, fun w hw => ?_⟩
    rcases h2.new w hw with hk | ⟨y, hy, hyw⟩
    · have h5 := hmax w hk
      rcases h2.new _ hnew with hk2 | ⟨y, hy, hyw⟩
      · have := hmax _ hk2
        omega
      · have := hm y hy _ hyw
        omega
    · exact hm y hy w hyw

theorem run_full {limit : Nat} (hlim : 2 ≤ limit) : ∀ n, ∃ s, run limit n = some s ∧ Full s
  | 0 => ⟨_, rfl, by simp, ⟨_, rfl, [ChainScript.Odd.unit], by simp, 1, rfl, by simp⟩⟩
  | n + 1 => by
    obtain ⟨s, hs, hf⟩ := run_full hlim n
    obtain ⟨e, he, hf'⟩ := (run_ok n hs).extend_full hlim hf (run_unit n hs)
    refine ⟨_, ?_, hf'⟩
    unfold run
    simp only [Option.bind_eq_bind, hs, he, Option.bind_some]

end Parm.ChainScript
