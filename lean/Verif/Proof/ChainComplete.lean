import Verif.Proof.ChainScript
import Verif.SpecSearch

/-!
# Completeness of the first three rounds of the search (property C83)
-/

namespace Parm.ChainScript

/-- every entry is still there, with the same chains in front -/
def Keeps (db db' : Db) : Prop := ∀ e ∈ db, ∃ e' ∈ db', e'.1 = e.1 ∧ e.2 <+: e'.2

theorem Keeps.refl (db : Db) : Keeps db db := fun e he => ⟨e, he, rfl, List.prefix_refl _⟩

theorem Keeps.trans {a b c : Db} (h1 : Keeps a b) (h2 : Keeps b c) : Keeps a c := by
  intro e he
  obtain ⟨f, hf, e1, p1⟩ := h1 e he
  obtain ⟨g, hg, e2, p2⟩ := h2 f hf
  exact ⟨g, hg, e2.trans e1, p1.trans p2⟩

/-- what `StOk` leaves out: new values come with the chains of the row, known ones with shorter chains; all chains of the
row satisfy `Q` -/
structure StNew (Q : AsChain → Prop) (lvl : Nat) (K : List Int) (st : List AsChain × Db) : Prop where
  ok : StOk lvl K st
  short : ∀ e ∈ st.2, e.1 ∈ K → ∀ c ∈ e.2, c.length ≤ lvl
  fresh : ∀ e ∈ st.2, e.1 ∉ K → ∀ c ∈ e.2, c ∈ st.1
  last : ∀ c ∈ st.1, ∀ v, (vals c).getLast? = some v → v ∉ K
  src : ∀ c ∈ st.1, Q c

/-- `v` was known, or a chain with these values is in the row -/
def Hit (K : List Int) (row : List AsChain) (vs : List Int) (v : Int) : Prop := v ∈ K ∨ ∃ c ∈ row, vals c = vs

theorem addCand_new {Q : AsChain → Prop} {lvl : Nat} {K : List Int} {st : List AsChain × Db} (h : StNew Q lvl K st)
    {c : AsChain} {v : Int} (hc : Good c) (hl : c.length = lvl + 1) (hv : (vals c).getLast? = some v) (hQ : Q c) :
    StNew Q lvl K (addCand c v st) ∧ (∀ x ∈ st.1, x ∈ (addCand c v st).1) ∧ Keeps st.2 (addCand c v st).2 ∧
      Hit K (addCand c v st).1 (vals c) v := by
  have hok := (addCand_ok h.ok hc hl hv).1
  obtain ⟨row, db⟩ := st
  unfold addCand at hok ⊢
  dsimp only at hok ⊢
  have hsrc : ∀ x ∈ row ++ [c], Q x := by
    intro x hx
    rcases List.mem_append.1 hx with hx | hx
    · exact h.src x hx
    · rw [List.mem_singleton] at hx
      exact hx ▸ hQ
  have hlast : v ∉ K → ∀ x ∈ row ++ [c], ∀ w, (vals x).getLast? = some w → w ∉ K := by
    intro hvK x hx w hw
    rcases List.mem_append.1 hx with hx | hx
    · exact h.last x hx w hw
    · rw [List.mem_singleton] at hx
      subst hx
      rw [hv] at hw
      cases hw
      exact hvK
  cases hg : db.get v with
  | none =>
    rw [hg] at hok
    dsimp only at hok ⊢
    have hvK : v ∉ K := fun hK => get_none hg (h.ok.old v hK)
    refine ⟨⟨hok, ?_, ?_, hlast hvK, hsrc⟩, fun x hx => List.mem_append.2 (.inl hx), ?_, .inr ⟨c, by simp, rfl⟩⟩
    · intro e he hK
      rcases List.mem_append.1 he with he | he
      · exact h.short e he hK
      · rw [List.mem_singleton] at he
        subst he
        exact absurd hK hvK
    · intro e he hK x hx
      rcases List.mem_append.1 he with he | he
      · exact List.mem_append.2 (.inl (h.fresh e he hK x hx))
      · rw [List.mem_singleton] at he
        subst he
        exact List.mem_append.2 (.inr hx)
    · exact fun e he => ⟨e, List.mem_append.2 (.inl he), rfl, List.prefix_refl _⟩
  | some cs =>
    rw [hg] at hok
    have hm := get_some hg
    obtain ⟨o1, _, _⟩ := h.ok.db.2 _ hm
    dsimp only at o1
    obtain ⟨y, ys, hys⟩ := List.exists_cons_of_ne_nil o1
    dsimp only at hok ⊢
    by_cases hif : (cs.head?.map List.length = some c.length) ∧ vals c ∉ cs.map vals
    · rw [if_pos hif] at hok ⊢
      have hy : y.length = lvl + 1 := by
        have h1 := hif.1
        rw [hys] at h1
        simp only [List.head?_cons, Option.map_some, Option.some.injEq] at h1
        omega
      have hvK : v ∉ K := fun hK => by
        have := h.short _ hm hK y (by dsimp only; rw [hys]; simp)
        omega
      refine ⟨⟨hok, ?_, ?_, hlast hvK, hsrc⟩, fun x hx => List.mem_append.2 (.inl hx), ?_, .inr ⟨c, by simp, rfl⟩⟩
      · intro e he hK
        obtain ⟨e0, he0, rfl⟩ := List.mem_map.1 he
        by_cases hev : e0.1 = v
        · rw [if_pos hev] at hK
          exact absurd (hev ▸ hK) hvK
        · rw [if_neg hev] at hK ⊢
          exact h.short e0 he0 hK
      · intro e he hK x hx
        obtain ⟨e0, he0, rfl⟩ := List.mem_map.1 he
        by_cases hev : e0.1 = v
        · rw [if_pos hev] at hK hx
          rcases List.mem_append.1 hx with hx | hx
          · exact List.mem_append.2 (.inl (h.fresh e0 he0 hK x hx))
          · exact List.mem_append.2 (.inr hx)
        · rw [if_neg hev] at hK hx
          exact List.mem_append.2 (.inl (h.fresh e0 he0 hK x hx))
      · intro e he
        refine ⟨_, List.mem_map.2 ⟨e, he, rfl⟩, ?_⟩
        by_cases hev : e.1 = v
        · rw [if_pos hev]
          exact ⟨rfl, List.prefix_append _ _⟩
        · rw [if_neg hev]
          exact ⟨rfl, List.prefix_refl _⟩
    · rw [if_neg hif]
      refine ⟨h, fun _ hx => hx, Keeps.refl _, ?_⟩
      by_cases hvK : v ∈ K
      · exact .inl hvK
      · have hin := h.fresh _ hm hvK
        dsimp only at hin
        have hy := (h.ok.row y (hin y (by rw [hys]; simp))).2
        have h1 : cs.head?.map List.length = some c.length := by
          rw [hys, hl]
          simp [hy]
        have h2 : vals c ∈ cs.map vals := by
          by_contra h2
          exact hif ⟨h1, h2⟩
        obtain ⟨x, hx, e⟩ := List.mem_map.1 h2
        exact .inr ⟨x, hin x hx, e⟩

theorem Hit.mono {K : List Int} {row row' : List AsChain} {vs : List Int} {v : Int} (h : Hit K row vs v)
    (hr : ∀ x ∈ row, x ∈ row') : Hit K row' vs v :=
  h.imp id fun ⟨c, hc, e⟩ => ⟨c, hr c hc, e⟩

theorem tries_new {Q : AsChain → Prop} {lvl : Nat} {K : List Int} {cpq : AsChain} {p q : Odd} (hc : Good cpq)
    (hl : cpq.length = lvl) (hp : p.val ∈ vals cpq) (hq : q.val ∈ vals cpq) :
    ∀ (ts : List (Nat × Bool × Bool)) (st : List AsChain × Db), StNew Q lvl K st → (∀ t ∈ ts, 1 ≤ t.1) →
    (∀ t ∈ ts, 0 < (Odd.make t.2.1 p t.2.2 q t.1).val → Q (cpq ++ [Odd.make t.2.1 p t.2.2 q t.1])) →
    StNew Q lvl K (ts.foldl (tryOne cpq p q) st) ∧ (∀ x ∈ st.1, x ∈ (ts.foldl (tryOne cpq p q) st).1) ∧
      Keeps st.2 (ts.foldl (tryOne cpq p q) st).2 ∧
      ∀ t ∈ ts, 0 < (Odd.make t.2.1 p t.2.2 q t.1).val →
        Hit K (ts.foldl (tryOne cpq p q) st).1 (vals cpq ++ [(Odd.make t.2.1 p t.2.2 q t.1).val])
          (Odd.make t.2.1 p t.2.2 q t.1).val
  | [], st, h, _, _ => ⟨h, fun _ hx => hx, Keeps.refl _, by simp⟩
  | t :: ts, st, h, ht, hQ => by
    have h1 : StNew Q lvl K (tryOne cpq p q st t) ∧ (∀ x ∈ st.1, x ∈ (tryOne cpq p q st t).1) ∧
        Keeps st.2 (tryOne cpq p q st t).2 ∧ (0 < (Odd.make t.2.1 p t.2.2 q t.1).val →
          Hit K (tryOne cpq p q st t).1 (vals cpq ++ [(Odd.make t.2.1 p t.2.2 q t.1).val])
            (Odd.make t.2.1 p t.2.2 q t.1).val) := by
      unfold tryOne
      dsimp only
      by_cases hv : (Odd.make t.2.1 p t.2.2 q t.1).val > 0
      · rw [if_pos hv]
        have := addCand_new h (hc.extend hp hq t.2.1 t.2.2 (ht t (by simp)) hv) (by simp [hl]) (vals_last_append _ _)
          (hQ t (by simp) hv)
        refine ⟨this.1, this.2.1, this.2.2.1, fun _ => ?_⟩
        have h4 := this.2.2.2
        have e : vals (cpq ++ [Odd.make t.2.1 p t.2.2 q t.1]) = vals cpq ++ [(Odd.make t.2.1 p t.2.2 q t.1).val] := by
          simp [vals]
        rw [e] at h4
        exact h4
      · rw [if_neg hv]
        exact ⟨h, fun _ hx => hx, Keeps.refl _, fun h => absurd h hv⟩
    obtain ⟨a, b, c, d⟩ := tries_new hc hl hp hq ts _ h1.1 (fun x hx => ht x (by simp [hx]))
      (fun x hx => hQ x (by simp [hx]))
    refine ⟨a, fun x hx => b x (h1.2.1 x hx), h1.2.2.1.trans c, fun x hx hv => ?_⟩
    rcases List.mem_cons.1 hx with rfl | hx
    · exact (h1.2.2.2 hv).mono b
    · exact d x hx hv

/-- `c` was put together from two chains of `A` -/
def Source (limit lvl : Nat) (A : List AsChain) (c : AsChain) : Prop :=
  ∃ cp ∈ A, ∃ cq ∈ A, ∃ cpq p q t, merge cp cq = some cpq ∧ cpq.length = lvl ∧ cp.getLast? = some p ∧
    cq.getLast? = some q ∧ t ∈ tries limit q ∧ 0 < (Odd.make t.2.1 p t.2.2 q t.1).val ∧
    c = cpq ++ [Odd.make t.2.1 p t.2.2 q t.1]

theorem tryPair_new {limit lvl : Nat} {A : List AsChain} {K : List Int} {cp cq : AsChain} (hp : Good cp) (hq : Good cq)
    (hpA : cp ∈ A) (hqA : cq ∈ A) {st : List AsChain × Db} (h : StNew (Source limit lvl A) lvl K st) :
    ∃ st', tryPair limit lvl cp cq st = some st' ∧ StNew (Source limit lvl A) lvl K st' ∧ (∀ x ∈ st.1, x ∈ st'.1) ∧
      Keeps st.2 st'.2 ∧
      ∀ p q cpq, merge cp cq = some cpq → cpq.length = lvl → cp.getLast? = some p → cq.getLast? = some q →
        ∀ t ∈ tries limit q, 0 < (Odd.make t.2.1 p t.2.2 q t.1).val →
        Hit K st'.1 (vals cpq ++ [(Odd.make t.2.1 p t.2.2 q t.1).val]) (Odd.make t.2.1 p t.2.2 q t.1).val := by
  obtain ⟨c, hc, hg, h1, h2⟩ := hp.merge hq
  obtain ⟨p, hpl⟩ : ∃ p, cp.getLast? = some p := ⟨_, List.getLast?_eq_some_getLast hp.ne⟩
  obtain ⟨q, hql⟩ : ∃ q, cq.getLast? = some q := ⟨_, List.getLast?_eq_some_getLast hq.ne⟩
  unfold tryPair
  rw [hc, hpl, hql]
  simp only [Option.bind_eq_bind, Option.bind_some]
  by_cases hl : c.length = lvl
  · rw [if_neg (by simpa using hl)]
    obtain ⟨a, b, k, d⟩ := tries_new hg hl (h1 _ (last_mem hpl)) (h2 _ (last_mem hql)) (tries limit q) st h
      (fun t ht => tries_r ht) (fun t ht hv => ⟨cp, hpA, cq, hqA, c, p, q, t, hc, hl, hpl, hql, ht, hv, rfl⟩)
    refine ⟨_, rfl, a, b, k, ?_⟩
    intro p' q' c' e1 _ e3 e4
    cases e1
    cases e3
    cases e4
    exact d
  · rw [if_pos hl]
    refine ⟨_, rfl, h, fun _ hw => hw, Keeps.refl _, ?_⟩
    intro p' q' c' e1 e2
    cases e1
    exact absurd e2 hl

theorem pairs_new {limit lvl : Nat} {A : List AsChain} {K : List Int} :
    ∀ (ps : List (AsChain × AsChain)) (st : List AsChain × Db),
    (∀ x ∈ ps, (Good x.1 ∧ x.1 ∈ A) ∧ Good x.2 ∧ x.2 ∈ A) → StNew (Source limit lvl A) lvl K st →
    ∃ st', ps.foldlM (fun st pq => tryPair limit lvl pq.1 pq.2 st) st = some st' ∧ StNew (Source limit lvl A) lvl K st' ∧
      (∀ x ∈ st.1, x ∈ st'.1) ∧ Keeps st.2 st'.2 ∧
      ∀ x ∈ ps, ∀ p q cpq, merge x.1 x.2 = some cpq → cpq.length = lvl → x.1.getLast? = some p → x.2.getLast? = some q →
        ∀ t ∈ tries limit q, 0 < (Odd.make t.2.1 p t.2.2 q t.1).val →
        Hit K st'.1 (vals cpq ++ [(Odd.make t.2.1 p t.2.2 q t.1).val]) (Odd.make t.2.1 p t.2.2 q t.1).val
  | [], st, _, h => ⟨st, rfl, h, fun _ hw => hw, Keeps.refl _, by simp⟩
  | y :: ps, st, hg, h => by
    obtain ⟨⟨g1, g2⟩, g3, g4⟩ := hg y (by simp)
    obtain ⟨s1, e1, h1, k1, m1, f1⟩ := tryPair_new g1 g3 g2 g4 h
    obtain ⟨s2, e2, h2, k2, m2, f2⟩ := pairs_new ps s1 (fun x hx => hg x (by simp [hx])) h1
    refine ⟨s2, by simp only [List.foldlM_cons, e1, Option.bind_eq_bind, Option.bind_some, e2], h2,
      fun w hw => k2 w (k1 w hw), m1.trans m2, ?_⟩
    intro x hx p q cpq a b c d t ht hv
    rcases List.mem_cons.1 hx with rfl | hx
    · exact (f1 p q cpq a b c d t ht hv).mono k2
    · exact f2 x hx p q cpq a b c d t ht hv

/-- one whole round: `s` before, `e` the new row and database -/
structure Round (limit : Nat) (s : List (List AsChain) × Db) (e : List AsChain × Db) : Prop where
  new : StNew (Source limit s.1.length s.1.flatten) s.1.length (s.2.map (·.1)) e
  keeps : Keeps s.2 e.2
  hit : ∀ cp ∈ s.1.flatten, ∀ cq ∈ s.1.flatten, ∀ p q cpq, merge cp cq = some cpq → cpq.length = s.1.length →
    cp.getLast? = some p → cq.getLast? = some q → ∀ t ∈ tries limit q, 0 < (Odd.make t.2.1 p t.2.2 q t.1).val →
    Hit (s.2.map (·.1)) e.1 (vals cpq ++ [(Odd.make t.2.1 p t.2.2 q t.1).val]) (Odd.make t.2.1 p t.2.2 q t.1).val

/-- all chains kept are at most as long as there are rows -/
def Short (s : List (List AsChain) × Db) : Prop := ∀ e ∈ s.2, ∀ c ∈ e.2, c.length ≤ s.1.length

theorem extend_round {limit : Nat} {s : List (List AsChain) × Db} (h : RunOk s) (hs : Short s) {e : List AsChain × Db}
    (he : extend limit s.1 s.2 = some e) : Round limit s e := by
  unfold ChainScript.extend at he
  split_ifs at he
  simp only [Option.bind_eq_bind, Option.bind_eq_some_iff] at he
  obtain ⟨row, hr, c, hc, he⟩ := he
  rw [h.last hr (List.mem_of_getLast? hc)] at he
  obtain ⟨st, h1, h2, _, h4, h5⟩ := pairs_new (limit := limit) (lvl := s.1.length) (A := s.1.flatten) (pairs s.1) ([], s.2)
    (fun x hx => ⟨⟨h.good (mem_pairs.1 hx).1, (mem_pairs.1 hx).1⟩, h.good (mem_pairs.1 hx).2, (mem_pairs.1 hx).2⟩)
    ⟨h.start _, fun e he _ => hs e he, fun e he hK => absurd (List.mem_map.2 ⟨e, he, rfl⟩) hK, by simp, by simp⟩
  unfold pairs at h1
  rw [h1] at he
  cases he
  exact ⟨h2, h4, fun cp hp cq hq => h5 (cp, cq) (mem_pairs.2 ⟨hp, hq⟩)⟩

theorem Round.short {limit : Nat} {s : List (List AsChain) × Db} {e : List AsChain × Db} (h : Round limit s e) :
    Short (s.1 ++ [e.1], e.2) := by
  intro x hx c hc
  simp only [List.length_append, List.length_singleton]
  by_cases hK : x.1 ∈ s.2.map (·.1)
  · have := h.new.short x hx hK c hc
    omega
  · have := (h.new.ok.row c (h.new.fresh x hx hK c hc)).2
    omega

theorem run_succ {limit n : Nat} {s : List (List AsChain) × Db} (h : run limit (n + 1) = some s) :
    ∃ t e, run limit n = some t ∧ extend limit t.1 t.2 = some e ∧ s = (t.1 ++ [e.1], e.2) := by
  unfold run at h
  simp only [Option.bind_eq_bind, Option.bind_eq_some_iff] at h
  obtain ⟨t, ht, e, he, h⟩ := h
  cases h
  exact ⟨t, e, ht, he, rfl⟩

theorem run_short {limit : Nat} : ∀ (n : Nat) {s : List (List AsChain) × Db}, run limit n = some s → Short s
  | 0, s, h => by
    cases h
    intro e he c hc
    rw [List.mem_singleton] at he
    subst he
    rw [List.mem_singleton] at hc
    subst hc
    simp
  | n + 1, s, h => by
    obtain ⟨t, e, ht, he, rfl⟩ := run_succ h
    exact (extend_round (run_ok n ht) (run_short n ht) he).short

theorem run_round {limit n : Nat} {s : List (List AsChain) × Db} (h : run limit (n + 1) = some s) :
    ∃ t e, run limit n = some t ∧ Round limit t e ∧ s = (t.1 ++ [e.1], e.2) := by
  obtain ⟨t, e, ht, he, rfl⟩ := run_succ h
  exact ⟨t, e, ht, extend_round (run_ok n ht) (run_short n ht) he, rfl⟩

theorem run_rows {limit : Nat} : ∀ (n : Nat) {s : List (List AsChain) × Db}, run limit n = some s → s.1.length = n + 1
  | 0, s, h => by
    cases h
    rfl
  | n + 1, s, h => by
    obtain ⟨t, e, ht, _, rfl⟩ := run_succ h
    simp [run_rows n ht]

/-- a later state keeps the entries of an earlier one -/
theorem run_keeps {limit : Nat} (n : Nat) {s : List (List AsChain) × Db} (h : run limit n = some s) :
    ∀ (m : Nat) {t : List (List AsChain) × Db}, run limit (n + m) = some t → Keeps s.2 t.2
  | 0, t, ht => by
    rw [Nat.add_zero, h] at ht
    cases ht
    exact Keeps.refl _
  | m + 1, t, ht => by
    obtain ⟨u, e, hu, hr, rfl⟩ := run_round (n := n + m) ht
    exact (run_keeps n h m hu).trans hr.keeps

theorem run_earlier {limit : Nat} (n : Nat) : ∀ (m : Nat) {t : List (List AsChain) × Db}, run limit (n + m) = some t →
    ∃ s, run limit n = some s
  | 0, t, ht => ⟨t, ht⟩
  | m + 1, t, ht => by
    obtain ⟨u, e, hu, _, _⟩ := run_succ (n := n + m) ht
    exact run_earlier n m hu

end Parm.ChainScript
