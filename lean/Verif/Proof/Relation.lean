import Verif.Proof.Monad
import Mathlib.Data.List.Forall2

/-!
# Relating two executions

A relation between the ciphertexts of two (possibly equal) schemes that the primitives
preserve is preserved by every modelled operation; the two executions perform the same number
of bootstraps, and either both return or both fail, under every schedule.
-/

namespace Parm

theorem Fails.allFail {α : Type} {m : M α} {f : Fault} (h : Fails m f) : AllFail m := fun s => ⟨f, h s⟩

theorem AllFail.bind {α β : Type} {m : M α} {f : α → M β} (h : AllFail m) : AllFail (m >>= f) := by
  intro s
  obtain ⟨e, he⟩ := h s
  exact ⟨e, bind_error he⟩

theorem Returns.bind_allFail {α β : Type} {m : M α} {f : α → M β} {a : α} {n : Nat}
    (h1 : Returns m a n) (h2 : AllFail (f a)) : AllFail (m >>= f) := by
  intro s
  obtain ⟨r, rp, hx, hr⟩ := h1 s
  rw [bind_ok hr]; exact h2 _

theorem AllFail.expect {α : Type} {m : M α} (h : AllFail m) : AllFail m.expect := by
  intro s
  obtain ⟨e, he⟩ := h s
  unfold M.expect
  rw [he]
  cases e with
  | err e => exact ⟨_, rfl⟩
  | panic p => exact ⟨_, rfl⟩

theorem AllFail.call {α : Type} {m : M α} (h : AllFail m) : AllFail m.call := by
  intro s
  obtain ⟨f, hf⟩ := h.expect { s with nPbs := 0 :: s.nPbs }
  refine ⟨f, ?_⟩
  unfold M.call M.analysed
  have h1 : (get : M St) s = .ok (s, s) := rfl
  rw [bind_ok h1]
  have h2 : (set { s with nPbs := 0 :: s.nPbs } : M Unit) s = .ok ((), { s with nPbs := 0 :: s.nPbs }) := rfl
  rw [bind_ok h2, bind_error hf]

theorem AllFail.nextOrder_bind {α : Type} {k : Nat} {f : List Nat → M α}
    (h : ∀ ord : List Nat, ord.Perm (List.range k) → AllFail (f ord)) :
    AllFail (M.nextOrder k >>= f) := by
  intro s
  have hp := s.sched.perm s.region k
  have : M.nextOrder k s = .ok (s.sched.order s.region k, { s with region := s.region + 1 }) := rfl
  rw [bind_ok this]
  exact h _ hp _

theorem Returns.not_allFail {α : Type} {m : M α} {a : α} {n : Nat}
    (h1 : Returns m a n) (h2 : AllFail m) : False := by
  obtain ⟨r, _, _, hr⟩ := h1 (St.init Sched.seq)
  obtain ⟨f, hf⟩ := h2 (St.init Sched.seq)
  rw [hr] at hf; cases hf

/-- a value is returned, the same under every schedule, or every schedule fails -/
def Settled {α : Type} (m : M α) : Prop := (∃ a n, Returns m a n) ∨ AllFail m

theorem AllFail.runTasks {α : Type} {f : Nat → α → M α} :
    ∀ (ord : List Nat) (arr : List α), ord.Nodup → (∀ i ∈ ord, i < arr.length) →
      (∀ i (_ : i ∈ ord) (hi : i < arr.length), Settled (f i arr[i])) →
      (∃ i, i ∈ ord ∧ ∃ hi : i < arr.length, AllFail (f i arr[i])) → AllFail (runTasks f ord arr)
  | [], _, _, _, _, ⟨i, h, _⟩ => by simp at h
  | i :: is, arr, hnd, hlt, hf, hex => by
    have hi : i < arr.length := hlt i (by simp)
    have hnot : i ∉ is := (List.nodup_cons.1 hnd).1
    unfold Parm.runTasks
    refine (Returns.idx hi).bind_allFail ?_
    rcases hf i (by simp) hi with ⟨a, n, ha⟩ | hfail
    · refine ha.bind_allFail ?_
      refine AllFail.runTasks is _ (List.nodup_cons.1 hnd).2
        (by intro j hj; simpa using hlt j (by simp [hj])) ?_ ?_
      · intro j hj hjl
        have hne : i ≠ j := by rintro rfl; exact hnot hj
        have := hf j (by simp [hj]) (by simpa using hjl)
        simpa [List.getElem_set, hne] using this
      · obtain ⟨j, hj, hjl, hjf⟩ := hex
        have hne : i ≠ j := by
          rintro rfl
          exact ha.not_allFail hjf
        refine ⟨j, by simpa [Ne.symm hne] using hj, by simpa using hjl, ?_⟩
        simpa [List.getElem_set, hne] using hjf
    · exact hfail.bind

theorem AllFail.parFor {α : Type} {arr : List α} {f : Nat → α → M α}
    (h : ∀ i (hi : i < arr.length), Settled (f i arr[i]))
    (hex : ∃ i, ∃ hi : i < arr.length, AllFail (f i arr[i])) : AllFail (parFor arr f) := by
  unfold Parm.parFor
  apply AllFail.nextOrder_bind
  intro ord hp
  obtain ⟨i, hi, hf⟩ := hex
  exact AllFail.runTasks ord arr (hp.nodup_iff.2 List.nodup_range)
    (fun i hi => by simpa using hp.mem_iff.1 hi) (fun i _ hi => h i hi)
    ⟨i, hp.mem_iff.2 (by simpa using hi), hi, hf⟩

theorem AllFail.seqFor {α : Type} {arr : List α} {f : Nat → α → M α}
    (h : ∀ i (hi : i < arr.length), Settled (f i arr[i]))
    (hex : ∃ i, ∃ hi : i < arr.length, AllFail (f i arr[i])) : AllFail (seqFor arr f) := by
  unfold Parm.seqFor
  obtain ⟨i, hi, hf⟩ := hex
  exact AllFail.runTasks _ arr List.nodup_range
    (fun i hi => by simpa using hi) (fun i _ hi => h i hi) ⟨i, by simpa using hi, hi, hf⟩

/-- Both return, `Q`-related values at the same cost (which is 0 if `Z`), or both fail; under
every pair of schedules. -/
def RelM (Z : Prop) {α β : Type} (Q : α → β → Prop) (m : M α) (m' : M β) : Prop :=
  (∃ a a' n, Returns m a n ∧ Returns m' a' n ∧ Q a a' ∧ (Z → n = 0)) ∨ (AllFail m ∧ AllFail m')

section
variable {Z : Prop} {α β α' β' : Type} {Q : α → β → Prop} {P : α' → β' → Prop}

theorem RelM.left {m : M α} {m' : M β} (h : RelM Z Q m m') : Settled m := by
  rcases h with ⟨a, a', n, h1, _⟩ | ⟨h, _⟩
  · exact Or.inl ⟨a, n, h1⟩
  · exact Or.inr h

theorem RelM.right {m : M α} {m' : M β} (h : RelM Z Q m m') : Settled m' := by
  rcases h with ⟨a, a', n, _, h1, _⟩ | ⟨_, h⟩
  · exact Or.inl ⟨a', n, h1⟩
  · exact Or.inr h

theorem RelM.pure {a : α} {b : β} (h : Q a b) : RelM Z Q (Pure.pure a) (Pure.pure b) :=
  Or.inl ⟨a, b, 0, Returns.pure a, Returns.pure b, h, fun _ => rfl⟩

theorem RelM.fail {f f' : Fault} {m : M α} {m' : M β} (h : Fails m f) (h' : Fails m' f') : RelM Z Q m m' :=
  Or.inr ⟨h.allFail, h'.allFail⟩

theorem RelM.panic (p p' : PanicKind) : RelM Z Q (M.panic p) (M.panic p') :=
  RelM.fail (Fails.panic p) (Fails.panic p')

theorem RelM.err (p p' : ErrKind) : RelM Z Q (M.err p) (M.err p') :=
  RelM.fail (Fails.err p) (Fails.err p')

theorem RelM.bind {m : M α} {m' : M β} {f : α → M α'} {f' : β → M β'} (h : RelM Z Q m m')
    (hf : ∀ a b, Q a b → RelM Z P (f a) (f' b)) : RelM Z P (m >>= f) (m' >>= f') := by
  rcases h with ⟨a, b, n, h1, h2, hq, hz⟩ | ⟨h1, h2⟩
  · rcases hf a b hq with ⟨c, d, k, g1, g2, gq, gz⟩ | ⟨g1, g2⟩
    · exact Or.inl ⟨c, d, n + k, h1.bind g1, h2.bind g2, gq, fun z => by rw [hz z, gz z]⟩
    · exact Or.inr ⟨h1.bind_allFail g1, h2.bind_allFail g2⟩
  · exact Or.inr ⟨h1.bind, h2.bind⟩

theorem RelM.mono {Q' : α → β → Prop} {m : M α} {m' : M β} (h : RelM Z Q m m')
    (hq : ∀ a b, Q a b → Q' a b) : RelM Z Q' m m' := by
  rcases h with ⟨a, b, n, h1, h2, h3, hz⟩ | h
  · exact Or.inl ⟨a, b, n, h1, h2, hq a b h3, hz⟩
  · exact Or.inr h

theorem RelM.expect {m : M α} {m' : M β} (h : RelM Z Q m m') : RelM Z Q m.expect m'.expect := by
  rcases h with ⟨a, b, n, h1, h2, hq, hz⟩ | ⟨h1, h2⟩
  · exact Or.inl ⟨a, b, n, h1.expect, h2.expect, hq, hz⟩
  · exact Or.inr ⟨h1.expect, h2.expect⟩

theorem RelM.call {m : M α} {m' : M β} (h : RelM Z Q m m') : RelM Z Q m.call m'.call := by
  rcases h with ⟨a, b, n, h1, h2, hq, hz⟩ | ⟨h1, h2⟩
  · exact Or.inl ⟨a, b, n, h1.call, h2.call, hq, hz⟩
  · exact Or.inr ⟨h1.call, h2.call⟩

/-- a computation that does not bootstrap, related to itself -/
theorem RelM.same {m : M α} (h : (∃ a, Returns m a 0) ∨ AllFail m) : RelM Z (· = ·) m m := by
  rcases h with ⟨a, h⟩ | h
  · exact Or.inl ⟨a, a, 0, h, h, rfl, fun _ => rfl⟩
  · exact Or.inr ⟨h, h⟩

theorem RelM.ite {c : Prop} [Decidable c] {m1 m2 : M α} {m1' m2' : M β} (h1 : c → RelM Z Q m1 m1')
    (h2 : ¬ c → RelM Z Q m2 m2') : RelM Z Q (if c then m1 else m2) (if c then m1' else m2') := by
  split
  · rename_i h; exact h1 h
  · rename_i h; exact h2 h

theorem RelM.idx {l : List α} {l' : List β} (h : List.Forall₂ Q l l') (i : Nat) :
    RelM Z Q (idx l i) (idx l' i) := by
  have hl := h.length_eq
  by_cases hi : i < l.length
  · have hi' : i < l'.length := by omega
    exact Or.inl ⟨_, _, 0, Returns.idx hi, Returns.idx hi', h.get hi hi', fun _ => rfl⟩
  · unfold Parm.idx
    rw [List.getElem?_eq_none (by omega), List.getElem?_eq_none (by omega)]
    exact RelM.panic _ _

theorem RelM.tasks {arr : List α} {arr' : List β} {f : Nat → α → M α} {f' : Nat → β → M β}
    (g : ∀ {γ : Type}, List γ → (Nat → γ → M γ) → M (List γ))
    (hret : ∀ {γ : Type} {arr : List γ} {f : Nat → γ → M γ} {P : Nat → γ → Nat → Prop},
      (∀ i (hi : i < arr.length), CYields (f i arr[i]) (P i)) →
      CYields (g arr f) (fun res n => ∃ c : Nat → Nat, res.length = arr.length ∧
      (∀ i (hi : i < res.length), P i res[i] (c i)) ∧ n = ((List.range arr.length).map c).sum))
    (hfail : ∀ {γ : Type} {arr : List γ} {f : Nat → γ → M γ},
      (∀ i (hi : i < arr.length), Settled (f i arr[i])) →
      (∃ i, ∃ hi : i < arr.length, AllFail (f i arr[i])) → AllFail (g arr f))
    (hl : arr.length = arr'.length)
    (h : ∀ i (hi : i < arr.length) (hi' : i < arr'.length), RelM Z Q (f i arr[i]) (f' i arr'[i])) :
    RelM Z (List.Forall₂ Q) (g arr f) (g arr' f') := by
  classical
  by_cases hex : ∃ i, ∃ (hi : i < arr.length) (hi' : i < arr'.length),
      AllFail (f i arr[i]) ∧ AllFail (f' i arr'[i])
  · obtain ⟨i, hi, hi', h1, h2⟩ := hex
    exact Or.inr ⟨hfail (fun i hi => (h i hi (by omega)).left) ⟨i, hi, h1⟩,
      hfail (fun i hi => (h i (by omega) hi).right) ⟨i, hi', h2⟩⟩
  · have hr : ∀ i (hi : i < arr.length) , ∃ a a' n, Returns (f i arr[i]) a n ∧
        Returns (f' i (arr'[i]'(by omega))) a' n ∧ Q a a' ∧ (Z → n = 0) := by
      intro i hi
      rcases h i hi (by omega) with h | h
      · exact h
      · exact absurd ⟨i, hi, by omega, h⟩ hex
    choose a a' n h1 h2 h3 h4 using hr
    obtain ⟨res, t, r1, c, e1, p1, s1⟩ := hret (arr := arr) (f := f)
      (P := fun i x k => ∀ hi : i < arr.length, x = a i hi ∧ k = n i hi)
      (fun i hi => ⟨_, _, h1 i hi, fun _ => ⟨rfl, rfl⟩⟩)
    obtain ⟨res', t', r1', c', e1', p1', s1'⟩ := hret (arr := arr') (f := f')
      (P := fun i x k => ∀ hi : i < arr.length, x = a' i hi ∧ k = n i hi)
      (fun i hi => ⟨_, _, h2 i (by omega), fun _ => ⟨rfl, rfl⟩⟩)
    have ht : t' = t := by
      rw [s1, s1', ← hl]
      congr 1
      apply List.map_congr_left
      intro i hi
      have hi' : i < arr.length := by simpa using hi
      rw [(p1 i (by omega) hi').2, (p1' i (by omega) hi').2]
    subst ht
    refine Or.inl ⟨res, res', t', r1, r1', ?_, ?_⟩
    · refine List.forall₂_of_length_eq_of_get (by omega) ?_
      intro i hi hi'
      have hia : i < arr.length := by omega
      have := h3 i hia
      rw [← (p1 i hi hia).1, ← (p1' i hi' hia).1] at this
      exact this
    · intro z
      rw [s1]
      apply List.sum_eq_zero
      intro k hk
      simp only [List.mem_map, List.mem_range] at hk
      obtain ⟨i, hi, rfl⟩ := hk
      rw [(p1 i (by omega) hi).2, h4 i hi z]

theorem RelM.parFor {arr : List α} {arr' : List β} {f : Nat → α → M α} {f' : Nat → β → M β}
    (hl : arr.length = arr'.length)
    (h : ∀ i (hi : i < arr.length) (hi' : i < arr'.length), RelM Z Q (f i arr[i]) (f' i arr'[i])) :
    RelM Z (List.Forall₂ Q) (parFor arr f) (parFor arr' f') :=
  RelM.tasks @Parm.parFor CYields.parFor AllFail.parFor hl h

theorem RelM.seqFor {arr : List α} {arr' : List β} {f : Nat → α → M α} {f' : Nat → β → M β}
    (hl : arr.length = arr'.length)
    (h : ∀ i (hi : i < arr.length) (hi' : i < arr'.length), RelM Z Q (f i arr[i]) (f' i arr'[i])) :
    RelM Z (List.Forall₂ Q) (seqFor arr f) (seqFor arr' f') :=
  RelM.tasks @Parm.seqFor CYields.seqFor AllFail.seqFor hl h

theorem AllFail.par2 {a : M α} {b : M β} (ha : Settled a) (hb : Settled b) (h : AllFail a ∨ AllFail b) :
    AllFail (par2 a b) := by
  unfold Parm.par2
  apply AllFail.nextOrder_bind
  intro ord _
  split
  · rcases ha with ⟨x, n, hx⟩ | hx
    · refine hx.bind_allFail ?_
      rcases h with h | h
      · exact absurd h hx.not_allFail
      · exact h.bind
    · exact hx.bind
  · rcases hb with ⟨x, n, hx⟩ | hx
    · refine hx.bind_allFail ?_
      rcases h with h | h
      · exact h.bind
      · exact absurd h hx.not_allFail
    · exact hx.bind

theorem RelM.par2 {a : M α} {a' : M β} {b : M α'} {b' : M β'} (ha : RelM Z Q a a') (hb : RelM Z P b b') :
    RelM Z (fun r r' => Q r.1 r'.1 ∧ P r.2 r'.2) (par2 a b) (par2 a' b') := by
  rcases ha with ⟨x, x', n, h1, h2, hq, hz⟩ | ⟨h1, h2⟩
  · rcases hb with ⟨y, y', k, g1, g2, gq, gz⟩ | ⟨g1, g2⟩
    · exact Or.inl ⟨_, _, _, h1.par2 g1, h2.par2 g2, ⟨hq, gq⟩, fun z => by rw [hz z, gz z]⟩
    · exact Or.inr ⟨AllFail.par2 (Or.inl ⟨_, _, h1⟩) (Or.inr g1) (Or.inr g1),
        AllFail.par2 (Or.inl ⟨_, _, h2⟩) (Or.inr g2) (Or.inr g2)⟩
  · exact Or.inr ⟨AllFail.par2 (Or.inr h1) hb.left (Or.inl h1), AllFail.par2 (Or.inr h2) hb.right (Or.inl h2)⟩

theorem Settled.bind_allFail {m : M α} {f : α → M β} (h : Settled m) (hf : ∀ a, AllFail (f a)) :
    AllFail (m >>= f) := by
  rcases h with ⟨a, n, h⟩ | h
  · exact h.bind_allFail (hf a)
  · exact h.bind

theorem AllFail.par3 {γ : Type} {a : M α} {b : M β} {c : M γ} (ha : Settled a) (hb : Settled b) (hc : Settled c)
    (h : AllFail a ∨ AllFail b ∨ AllFail c) : AllFail (par3 a b c) := by
  unfold Parm.par3
  apply AllFail.nextOrder_bind
  intro ord _
  rcases h with h | h | h
  · split
    · exact h.bind
    · split
      · refine hb.bind_allFail fun _ => ?_
        split
        · exact h.bind
        · exact hc.bind_allFail fun _ => h.bind
      · refine hc.bind_allFail fun _ => ?_
        split
        · exact h.bind
        · exact hb.bind_allFail fun _ => h.bind
  · split
    · refine ha.bind_allFail fun _ => ?_
      split
      · exact h.bind
      · exact hc.bind_allFail fun _ => h.bind
    · split
      · exact h.bind
      · refine hc.bind_allFail fun _ => ?_
        split
        · exact ha.bind_allFail fun _ => h.bind
        · exact h.bind
  · split
    · refine ha.bind_allFail fun _ => ?_
      split
      · exact hb.bind_allFail fun _ => h.bind
      · exact h.bind
    · split
      · refine hb.bind_allFail fun _ => ?_
        split
        · exact ha.bind_allFail fun _ => h.bind
        · exact h.bind
      · exact h.bind

theorem RelM.par3 {γ γ' : Type} {O : γ → γ' → Prop} {a : M α} {a' : M β} {b : M α'} {b' : M β'} {c : M γ} {c' : M γ'}
    (ha : RelM Z Q a a') (hb : RelM Z P b b') (hc : RelM Z O c c') :
    RelM Z (fun r r' => Q r.1 r'.1 ∧ P r.2.1 r'.2.1 ∧ O r.2.2 r'.2.2) (par3 a b c) (par3 a' b' c') := by
  have la := ha.left
  have lb := hb.left
  have lc := hc.left
  have ra := ha.right
  have rb := hb.right
  have rc := hc.right
  rcases ha with ⟨x, x', n, h1, h2, hq, hz⟩ | ⟨h1, h2⟩
  · rcases hb with ⟨y, y', k, g1, g2, gq, gz⟩ | ⟨g1, g2⟩
    · rcases hc with ⟨w, w', l, i1, i2, iq, iz⟩ | ⟨i1, i2⟩
      · exact Or.inl ⟨_, _, _, h1.par3 g1 i1, h2.par3 g2 i2, ⟨hq, gq, iq⟩, fun z => by rw [hz z, gz z, iz z]⟩
      · exact Or.inr ⟨AllFail.par3 la lb lc (Or.inr (Or.inr i1)), AllFail.par3 ra rb rc (Or.inr (Or.inr i2))⟩
    · exact Or.inr ⟨AllFail.par3 la lb lc (Or.inr (Or.inl g1)), AllFail.par3 ra rb rc (Or.inr (Or.inl g2))⟩
  · exact Or.inr ⟨AllFail.par3 la lb lc (Or.inl h1), AllFail.par3 ra rb rc (Or.inl h2)⟩

end

end Parm
