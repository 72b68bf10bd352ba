import Verif.Proof.WeightsOps
import Verif.Proof.AddExact

/-!
# What schoolbook multiplication bootstraps if some words of the operands are trivial zeros

A product of an encrypted word and a trivial zero is an encrypted word to which no sample contributes.  If several of these follow
each other, the sums and carries at these places can be equal, so that the words of a partial sum are not all different samples.
But where neighbouring words of a partial sum are equal, the next row of the table of products has no sample.
-/

namespace Parm
namespace Wt

theorem ws_carryIn (r : Nat) (w : Nat → Word Term) (i : Nat) :
    ws (carryIn r w i) = if r < i then ws (w i) ∪ ws (w (i - 1)) else ws (w i) := by
  unfold carryIn
  split
  · rw [ws_add, ws_mulConst]
  · rw [ws_mulConst]

theorem ws_afterCarry (w q : Nat → Word Term) (i : Nat) :
    ws (afterCarry w q i) = if 0 < i then ws (w i) ∪ ws (q i) ∪ ws (q (i - 1)) else ws (w i) ∪ ws (q i) := by
  unfold afterCarry
  split
  · rw [ws_add, ws_sub, ws_mulConst]
  · rw [ws_sub, ws_mulConst]

theorem mult_samples {t a : Term} (h : t.mult a ≠ 0) : a ∈ t.samples := by
  induction t with
  | input i =>
    simp only [Term.mult, Term.samples, Finset.mem_singleton] at h ⊢
    by_contra hc; rw [if_neg hc] at h; exact h rfl
  | boot acc t _ =>
    simp only [Term.mult, Term.samples, Finset.mem_singleton] at h ⊢
    by_contra hc; rw [if_neg hc] at h; exact h rfl
  | add s t hs ht =>
    simp only [Term.mult, Term.samples, Finset.mem_union] at h ⊢
    by_cases h1 : s.mult a = 0
    · exact .inr (ht (by rw [h1] at h; simpa using h))
    · exact .inl (hs h1)
  | neg t ht => exact ht (by simpa [Term.mult] using h)
  | mulC t k ht => exact ht (by intro e; rw [Term.mult, e] at h; simp at h)
  | addPt t p ht => exact ht h

theorem wm_ws {w : Word Term} {a : Term} (h : wm w a ≠ 0) : a ∈ ws w := by
  rcases isTriv_or w with ht | ⟨t, ht⟩
  · rw [wm_triv ht] at h; exact absurd rfl h
  · rw [wm_ct ht] at h; rw [ws_ct ht]; exact mult_samples h

theorem sizeOf_samples {t a : Term} (h : a ∈ t.samples) : sizeOf a ≤ sizeOf t := by
  induction t with
  | input i => simp only [Term.samples, Finset.mem_singleton] at h; rw [h]
  | boot acc t _ => simp only [Term.samples, Finset.mem_singleton] at h; rw [h]
  | add s t hs ht =>
    simp only [Term.samples, Finset.mem_union] at h
    rcases h with h | h
    · have := hs h; simp; omega
    · have := ht h; simp; omega
  | neg t ht => have := ht h; simp; omega
  | mulC t k ht => have := ht h; simp; omega
  | addPt t p ht => have := ht h; simp; omega

theorem boot_not_sample (acc : List (BitVec 64)) (t : Term) : Term.boot acc t ∉ t.samples := by
  intro h
  have := sizeOf_samples h
  simp at this

/-- a bootstrap of a word to which no sample from outside contributes -/
def Inner (a : Term) : Prop := ∃ acc t, a = .boot acc t ∧ ∀ k, t.mult (.input k) = 0

/-- no sample from outside contributes -/
def NoInput (w : Word Term) : Prop := ∀ k, wm w (.input k) = 0

/-- The rows of a table of products.  `F j p`: the word of the first factor which the word `p` of row `j` is a product with is
encrypted. -/
structure Rows (m : Nat) (R : Nat → Ctxt Term) (F : Nat → Nat → Prop) : Prop where
  step : ∀ j p, F (j + 1) (p + 1) → F j p
  fresh : ∀ j, j < m → Fresh (R j)
  noInput : ∀ j, j < m → ∀ p, NoInput (wd (R j) p)
  dead : ∀ j, j < m → ∀ p, ¬ F j p → ∀ a, wm (wd (R j) p) a = 0
  triv : ∀ j, j < m → ∀ p, (wd (R j) p).isTriv = true → ¬ F j p
  tag : ∀ j, j < m → ∀ p, F j p → ∃ a ∈ ws (wd (R j) p), ¬ Inner a ∧ ∀ j', j' ≤ j → a ∉ ws (wd (R j') (p + 1))
  apart : ∀ j j' p p', j < m → j' < m → (j ≠ j' ∨ p ≠ p') → Disj (wm (wd (R j) p)) (wm (wd (R j') p'))
  live : ∀ j, j < m → ∀ p a, wm (wd (R j) p) a ≠ 0 → ¬ Inner a

/-- what holds of the sum of the first `j` rows -/
structure Part (R : Nat → Ctxt Term) (F : Nat → Nat → Prop) (j : Nat) (c : Ctxt Term) : Prop where
  fresh : Fresh c
  noInput : ∀ p, NoInput (wd c p)
  src : ∀ p, ∀ a ∈ ws (wd c p), Inner a ∨ ∃ j' < j, a ∈ ws (wd (R j') p)
  live : ∀ p a, wm (wd c p) a ≠ 0 → Inner a ∨ ∃ j' < j, wm (wd (R j') p) a ≠ 0
  near : ∀ p, F j (p + 1) → Disj (wm (wd c (p + 1))) (wm (wd c p))

section
variable {m : Nat} {R : Nat → Ctxt Term} {F : Nat → Nat → Prop} {pc : Cloud} {c z : Ctxt Term} {n r : Nat}
  {w q : Nat → Word Term} {j : Nat}

theorem Rows.first (hR : Rows m R F) (hm : 0 < m) : Part R F 1 (R 0) where
  fresh := hR.fresh 0 hm
  noInput := hR.noInput 0 hm
  src p a ha := .inr ⟨0, by omega, ha⟩
  live p a ha := .inr ⟨0, by omega, ha⟩
  near p _ := hR.apart 0 0 _ _ hm hm (.inr (by omega))

/-- a partial sum and the next row have no sample in common -/
theorem Rows.next (hR : Rows m R F) (hc : Part R F j c) (hj : j < m) : Apart c (R j) := by
  intro p p' a
  by_cases h1 : wm (wd c p) a = 0
  · exact .inl h1
  right
  by_contra h2
  rcases hc.live p a h1 with hi | ⟨j', hj', h3⟩
  · exact hR.live j hj p' a h2 hi
  · rcases hR.apart j' j p p' (by omega) hj (.inl (by omega)) a with h | h
    · exact h3 h
    · exact h2 h

theorem Lut.noInput {acc : List (BitVec 64)} {w z : Word Term} (h : Lut acc w z) : NoInput z := by
  intro k
  rcases h with ⟨t, _, e⟩ | ⟨_, e⟩
  · rw [wm_ct e]; simp [Term.mult]
  · rw [wm_triv e]

theorem Lut.inner {acc : List (BitVec 64)} {w z : Word Term} (h : Lut acc w z) (hw : NoInput w) {a : Term} (ha : a ∈ ws z) :
    Inner a := by
  rcases h with ⟨t, e1, e⟩ | ⟨_, e⟩
  · rw [ws_ct e] at ha
    simp only [Term.samples, Finset.mem_singleton] at ha
    refine ⟨acc, t, ha, fun k => ?_⟩
    have := hw k
    rwa [wm_ct e1] at this
  · rw [ws_triv e] at ha; simp at ha

theorem AddShape.sumNoInput (h : AddShape pc true true c (R j) z n r w q) (hR : Rows m R F) (hc : Part R F j c) (hj : j < m)
    {i : Nat} (hi : i < n) : NoInput (w i) := by
  intro k
  rw [h.sum i hi, hc.noInput i k, hR.noInput j hj i k]; rfl

theorem AddShape.carryNoInput (h : AddShape pc true true c (R j) z n r w q) (hR : Rows m R F) (hc : Part R F j c) (hj : j < m)
    {i : Nat} (hi : i < n) : NoInput (carryIn r w i) := by
  intro k
  rw [wm_carryIn, h.sumNoInput hR hc hj hi k]
  split
  · rw [h.sumNoInput hR hc hj (i := i - 1) (by omega) k]; rfl
  · rfl

theorem AddShape.qNoInput (h : AddShape pc true true c (R j) z n r w q) {i : Nat} (hi : i < n) : NoInput (q i) := by
  by_cases hr : r ≤ i
  · exact (h.qHigh i hr hi).noInput
  · intro k; rw [wm_triv (h.qLow i (by omega))]

theorem AddShape.qInner (h : AddShape pc true true c (R j) z n r w q) (hR : Rows m R F) (hc : Part R F j c) (hj : j < m)
    {i : Nat} (hi : i < n) {a : Term} (ha : a ∈ ws (q i)) : Inner a := by
  by_cases hr : r ≤ i
  · exact (h.qHigh i hr hi).inner (h.carryNoInput hR hc hj hi) ha
  · rw [ws_triv (h.qLow i (by omega))] at ha; simp at ha

theorem AddShape.afterNoInput (h : AddShape pc true true c (R j) z n r w q) (hR : Rows m R F) (hc : Part R F j c) (hj : j < m)
    {i : Nat} (hi : i < n) : NoInput (afterCarry w q i) := by
  intro k
  rw [wm_afterCarry, h.sumNoInput hR hc hj hi k, h.qNoInput hi k]
  split
  · rw [h.qNoInput (i := i - 1) (by omega) k]; rfl
  · rfl

/-- the words of a partial sum: trivial, taken over, or results of bootstraps -/
theorem AddShape.partCases (h : AddShape pc true true c (R j) z n r w q) (hR : Rows m R F) (hc : Part R F j c) (hj : j < m)
    (i : Nat) :
    (wd z i).isTriv = true ∨
    (i < r ∧ i < n ∧ ws (wd z i) = ws (w i) ∧ ∀ a, wm (wd z i) a = wm (w i) a) ∨
    (r ≤ i ∧ i ≤ n ∧ ∃ a, Inner a ∧ (wd z i).ct = .ct a ∧ ws (wd z i) = {a}) := by
  rcases h.wordCases i with h1 | ⟨h1, h2, h3, h4⟩ | ⟨h1, h2, t, h3, h4⟩ | ⟨h1, u, h3, h4⟩
  · exact .inl h1
  · refine .inr (.inl ⟨h1, h2, ?_, h4⟩)
    rw [h3, ws_afterCarry, ws_triv (h.qLow i h1), ws_triv (h.qLow (i - 1) (by omega))]
    simp
  · refine .inr (.inr ⟨h1, by omega, _, ⟨_, t, rfl, fun k => ?_⟩, h4, by rw [ws_ct h4]; rfl⟩)
    have := h.afterNoInput hR hc hj h2 k
    rwa [wm_ct h3] at this
  · have hlt := h.lt
    refine .inr (.inr ⟨by omega, by omega, _, ⟨_, u, rfl, fun k => ?_⟩, h4, by rw [ws_ct h4]; rfl⟩)
    have := h.carryNoInput hR hc hj (i := n - 1) (by omega) k
    rwa [wm_ct h3] at this

theorem inner_disj {v : Word Term} {f : Term → Int} {a : Term} (ha : Inner a) (hv : (v.ct = .ct a)) (hf : ∀ b, f b ≠ 0 → ¬ Inner b) :
    Disj (wm v) f := by
  intro b
  by_cases hb : f b = 0
  · exact .inr hb
  left
  obtain ⟨acc, t, rfl, _⟩ := id ha
  rw [wm_ct hv, Term.mult, if_neg]
  rintro rfl
  exact hf _ hb ha

/-- where the next row has a sample, neighbouring words of the sum are different -/
theorem AddShape.near (h : AddShape pc true true c (R j) z n r w q) (hR : Rows m R F) (hc : Part R F j c) (hj : j < m)
    (p : Nat) (hF : F j p) : Disj (wm (wd z (p + 1))) (wm (wd z p)) := by
  have hlt := h.lt
  have hrow : ¬ p < rzero (R j) := by
    intro hp
    have hl := rzero_le (R j)
    exact hR.triv j hj p (by rw [wd_lt (by omega)]; exact isTriv_of_zero (rzero_low _ hp (by omega))) hF
  have hcur : ∀ i, i < r → p < r → (wd c i).isTriv = true := by
    intro i hi hp
    have hl := rzero_le c
    have := h.rdef
    rw [wd_lt (by omega)]; exact isTriv_of_zero (rzero_low _ (by omega) (by omega))
  have low : ∀ i, i < r → i < n → p < r → ∀ a, wm (w i) a = wm (wd (R j) i) a := by
    intro i hi hin hp a
    rw [h.sum i hin, wm_triv (hcur i hi hp)]; simp
  by_cases hp : p < r
  · rcases h.partCases hR hc hj p with h1 | ⟨h1, h2, _, h4⟩ | ⟨h1, _⟩
    · rw [wm_triv h1]; exact Disj.zero.symm
    · have e : ∀ a, wm (wd z p) a = wm (wd (R j) p) a := fun a => (h4 a).trans (low p h1 h2 hp a)
      rcases h.partCases hR hc hj (p + 1) with g1 | ⟨g1, g2, _, g4⟩ | ⟨g1, g2, a, g3, g4, _⟩
      · rw [wm_triv g1]; exact Disj.zero
      · exact (hR.apart j j (p + 1) p hj hj (.inr (by omega))).congr (fun a => (g4 a).trans (low _ g1 g2 hp a)) e
      · exact (inner_disj g3 g4 (hR.live j hj p)).congr (fun _ => rfl) e
    · omega
  · rcases h.wordCases p with h1 | ⟨h1, _⟩ | ⟨h1, h2, t, h3, h4⟩ | ⟨h1, u, h3, h4⟩
    · rw [wm_triv h1]; exact Disj.zero.symm
    · omega
    · rcases h.wordCases (p + 1) with g1 | ⟨g1, _⟩ | ⟨g1, g2, t', g3, g4⟩ | ⟨g1, u, g3, g4⟩
      · rw [wm_triv g1]; exact Disj.zero
      · omega
      · refine disj_boot g4 h4 ⟨_, _, rfl⟩ ⟨_, _, rfl⟩ fun e => ?_
        injection e with _ e
        obtain ⟨a, ha, hin, hna⟩ := hR.tag j hj p hF
        have m1 : a ∈ ws (afterCarry w q p) := by
          have : a ∈ ws (w p) := by rw [h.sumWs p h2]; exact Finset.mem_union_right _ ha
          rw [ws_afterCarry]
          split <;> simp [this]
        rw [ws_ct h3, ← e, ← ws_ct g3, ws_afterCarry, if_pos (by omega), Nat.add_sub_cancel, Finset.mem_union, Finset.mem_union,
          h.sumWs (p + 1) g2, Finset.mem_union] at m1
        rcases m1 with ((m1 | m1) | m1) | m1
        · rcases hc.src _ a m1 with hI | ⟨j', hj', hI⟩
          · exact hin hI
          · exact hna j' (by omega) hI
        · exact hna j (le_refl j) m1
        · exact hin (h.qInner hR hc hj g2 m1)
        · exact hin (h.qInner hR hc hj h2 m1)
      · refine disj_boot g4 h4 ⟨_, _, rfl⟩ ⟨_, _, rfl⟩ fun e => ?_
        injection e with _ e
        have hpn : n - 1 = p := by omega
        have hq : (q p).ct = .ct (.boot (accC pc) u) := by
          rw [← hpn, ← h.top, ← g1]; exact g4
        have m1 : Term.boot (accC pc) u ∈ ws (afterCarry w q p) := by
          have : Term.boot (accC pc) u ∈ ws (q p) := by rw [ws_ct hq]; simp [Term.samples]
          rw [ws_afterCarry]
          split <;> simp [this]
        rw [ws_ct h3, ← e] at m1
        exact boot_not_sample _ _ m1
    · rw [wm_triv (w := wd z (p + 1)) (wd_ge_triv (by rw [h.len]; omega))]; exact Disj.zero

theorem AddShape.part (h : AddShape pc true true c (R j) z n r w q) (hR : Rows m R F) (hc : Part R F j c) (hj : j < m) :
    Part R F (j + 1) z where
  fresh := h.fresh hc.fresh (hR.fresh j hj)
  noInput p k := by
    rcases h.partCases hR hc hj p with h1 | ⟨_, h2, _, h4⟩ | ⟨_, _, a, ⟨acc, t, rfl, _⟩, h4, _⟩
    · rw [wm_triv h1]
    · rw [h4]; exact h.sumNoInput hR hc hj h2 k
    · rw [wm_ct h4]; simp [Term.mult]
  src p a ha := by
    rcases h.partCases hR hc hj p with h1 | ⟨_, h2, h3, _⟩ | ⟨_, _, b, hb, _, h5⟩
    · rw [ws_triv h1] at ha; simp at ha
    · rw [h3, h.sumWs p h2, Finset.mem_union] at ha
      rcases ha with ha | ha
      · exact (hc.src p a ha).imp_right fun ⟨j', hj', e⟩ => ⟨j', by omega, e⟩
      · exact .inr ⟨j, by omega, ha⟩
    · rw [h5, Finset.mem_singleton] at ha; rw [ha]; exact .inl hb
  live p a ha := by
    rcases h.partCases hR hc hj p with h1 | ⟨_, h2, _, h4⟩ | ⟨_, _, b, hb, h4, _⟩
    · rw [wm_triv h1] at ha; exact absurd rfl ha
    · rw [h4, h.sum p h2] at ha
      by_cases h5 : wm (wd c p) a = 0
      · refine .inr ⟨j, by omega, fun e => ?_⟩
        rw [h5, e] at ha; simp at ha
      · exact (hc.live p a h5).imp_right fun ⟨j', hj', e⟩ => ⟨j', by omega, e⟩
    · obtain ⟨acc, t, rfl, _⟩ := id hb
      rw [wm_ct h4, Term.mult] at ha
      by_cases e : a = .boot acc t
      · rw [e]; exact .inl hb
      · rw [if_neg e] at ha; exact absurd rfl ha
  near p hF := h.near hR hc hj p (hR.step j p hF)

/-- input of a carry -/
theorem AddShape.carryRows (h : AddShape pc true true c (R j) z n r w q) (hR : Rows m R F) (hc : Part R F j c) (hj : j < m)
    (i : Nat) (hi : i < n) : Q2 (wm (carryIn r w i)) 20 := by
  have ap := hR.next hc hj
  have fr := hR.fresh j hj
  by_cases hri : r < i
  · have e : ∀ a, wm (carryIn r w i) a = (3 * wm (wd c i) a + wm (wd c (i - 1)) a) + (3 * wm (wd (R j) i) a + wm (wd (R j) (i - 1)) a) := by
      intro a
      rw [wm_carryIn, h.sum i hi, h.sum (i - 1) (by omega)]
      simp only [hri, if_true]
      ring
    have hd : Disj (fun a => 3 * wm (wd c i) a + wm (wd c (i - 1)) a) (fun a => 3 * wm (wd (R j) i) a + wm (wd (R j) (i - 1)) a) := by
      refine Disj.add ((Disj.symm ?_).scale 3) (Disj.symm ?_) <;>
        exact Disj.add ((ap _ _).symm.scale 3) (ap _ _).symm
    by_cases hF : F j i
    · have d1 : Disj (wm (wd c i)) (wm (wd c (i - 1))) := by
        have := hc.near (i - 1)
        rw [show i - 1 + 1 = i by omega] at this
        exact this hF
      have d2 := hR.apart j j i (i - 1) hj hj (.inr (by omega))
      have q1 := ((hc.fresh i).q2.scale 3).disj (hc.fresh (i - 1)).q2 (d1.scale 3)
      have q2 := ((fr i).q2.scale 3).disj (fr (i - 1)).q2 (d2.scale 3)
      exact ((q1.disj q2 hd).mono (by decide)).congr e
    · have q1 := (((hc.fresh i).l1.scale 3).add (hc.fresh (i - 1)).l1).q2
      have q2 : Q2 (fun a => 3 * wm (wd (R j) i) a + wm (wd (R j) (i - 1)) a) 1 :=
        (fr (i - 1)).q2.congr fun a => by rw [hR.dead j hj i hF a]; simp
      exact ((q1.disj q2 hd).mono (by decide)).congr e
  · refine (((((hc.fresh i).q2.scale 3).disj ((fr i).q2.scale 3) ?_).mono (by decide)).congr fun a => ?_)
    · exact (Disj.scale 3 ((ap i i).symm.scale 3).symm)
    · rw [wm_carryIn, h.sum i hi]
      simp only [hri, if_false, if_true]
      ring

/-- carries are results of bootstraps or trivial -/
theorem AddShape.qInd (h : AddShape pc true true c (R j) z n r w q) (i : Nat) (hi : i < n) :
    (∀ a, wm (q i) a = 0) ∨ ∃ b, ∀ a, wm (q i) a = if a = b then 1 else 0 := by
  by_cases hr : r ≤ i
  · rcases h.qHigh i hr hi with ⟨t, _, e⟩ | ⟨_, e⟩
    · exact .inr ⟨_, fun a => by rw [wm_ct e, Term.mult]⟩
    · exact .inl fun a => by rw [wm_triv e]
  · exact .inl fun a => by rw [wm_triv (h.qLow i (by omega))]

theorem carries_Q2 {f g : Term → Int} (hf : (∀ a, f a = 0) ∨ ∃ b, ∀ a, f a = if a = b then 1 else 0)
    (hg : (∀ a, g a = 0) ∨ ∃ b, ∀ a, g a = if a = b then 1 else 0) : Q2 (fun a => -2 * f a + g a) 5 := by
  have one : ∀ {f : Term → Int}, ((∀ a, f a = 0) ∨ ∃ b, ∀ a, f a = if a = b then 1 else 0) → One f := by
    rintro f (h | ⟨b, h⟩)
    · exact One.zero.congr h
    · exact ⟨b, by rw [h]; simp, fun a ha => by rw [h, if_neg ha]⟩
  by_cases hd : Disj f g
  · exact (((one hf).q2.scale (-2)).disj (one hg).q2 (hd.scale (-2))).mono (by decide)
  · rcases hf with hf | ⟨b, hf⟩
    · exact absurd (fun a => .inl (hf a)) hd
    rcases hg with hg | ⟨b', hg⟩
    · exact absurd (fun a => .inr (hg a)) hd
    have : b = b' := by
      by_contra hb
      refine hd fun a => ?_
      by_cases ha : a = b
      · right; rw [hg, if_neg]; rw [ha]; exact hb
      · left; rw [hf, if_neg ha]
    subst this
    refine ((one (.inr ⟨b, hf⟩)).neg.q2.mono (by decide)).congr fun a => ?_
    rw [hf, hg]; omega

/-- input of a refresh -/
theorem AddShape.refreshRows (h : AddShape pc true true c (R j) z n r w q) (hR : Rows m R F) (hc : Part R F j c) (hj : j < m)
    (i : Nat) (hi : i < n) : Q2 (wm (afterCarry w q i)) 14 := by
  have hw : Q2 (wm (w i)) 2 := ((hc.fresh i).q2.disj (hR.fresh j hj i).q2 (hR.next hc hj i i)).congr fun a => by
    rw [h.sum i hi]; simp
  have hq : Q2 (fun a => -2 * wm (q i) a + if 0 < i then wm (q (i - 1)) a else 0) 5 := by
    by_cases h0 : 0 < i
    · simp only [h0, if_true]
      exact carries_Q2 (h.qInd i hi) (h.qInd (i - 1) (by omega))
    · simp only [h0, if_false]
      exact carries_Q2 (h.qInd i hi) (.inl fun _ => rfl)
  exact (hw.add hq).congr (wm_afterCarry w q i)

variable {P : Term → Prop}

theorem add_rows (hP : ∀ t, Q2 t.mult 20 → P t) (pc : Cloud) (hR : Rows m R F) (pR : ∀ j, j < m → Past P (R j)) (hj : j < m)
    (hc : Part R F j c) (px : Past P c) :
    Ensures (ctAdd freeScheme pc c (R j)) fun z => Part R F (j + 1) z ∧ Past P z := by
  refine Ensures.call ((addSub_shape' pc true true c (R j)).mono ?_)
  rintro z (⟨_, rfl⟩ | ⟨_, h, rfl⟩ | ⟨_, _, n, r, w, q, h⟩)
  · simp only [if_true]
    exact ⟨⟨hR.fresh j hj, hR.noInput j hj, fun p a ha => .inr ⟨j, by omega, ha⟩, fun p a ha => .inr ⟨j, by omega, ha⟩,
      fun p _ => hR.apart j j _ _ hj hj (.inr (by omega))⟩, pR j hj⟩
  · refine ⟨⟨hc.fresh, hc.noInput, fun p a ha => (hc.src p a ha).imp_right fun ⟨j', hj', e⟩ => ⟨j', by omega, e⟩,
      fun p a ha => (hc.live p a ha).imp_right fun ⟨j', hj', e⟩ => ⟨j', by omega, e⟩, fun p hF => ?_⟩, px⟩
    refine absurd (hR.step j p hF) (hR.triv j hj p ?_)
    by_cases hp : p < (R j).length
    · rw [wd_lt hp]; exact allTriv_of_rzero h _ (List.getElem_mem _)
    · exact wd_ge_triv (by omega)
  · exact ⟨h.part hR hc hj, h.past px (pR j hj) (fun i hi t e => hP t ((h.carryRows hR hc hj i hi).of_ct e))
      fun _ i hi t e => hP t (((h.refreshRows hR hc hj i hi).mono (by decide)).of_ct e)⟩

theorem reduceLoop_rows (hP : ∀ t, Q2 t.mult 20 → P t) (pc : Cloud) (hR : Rows m R F) (pR : ∀ j, j < m → Past P (R j)) :
    ∀ (L : List (Ctxt Term)) (j : Nat) (c o : Ctxt Term), j + L.length = m → (∀ k (h : k < L.length), L[k] = R (j + k)) →
      Part R F j c → Past P c → Ensures (reduceLoop freeScheme pc L c o) (Past P)
  | [], _, _, _, _, _, _, px => Ensures.pure px
  | row :: L, j, c, o, hl, he, hc, px => by
    simp only [List.length_cons] at hl
    have e0 : row = R j := by have := he 0 (by simp); simpa using this
    subst e0
    unfold reduceLoop
    refine (add_rows hP pc hR pR (by omega) hc px).bind ?_
    rintro z ⟨hz, pz⟩
    refine reduceLoop_rows hP pc hR pR L (j + 1) z c (by omega) (fun k h => ?_) hz pz
    have := he (k + 1) (by simpa using h)
    rw [List.getElem_cons_succ] at this
    rw [this]; congr 1; omega

theorem reduce_rows (hP : ∀ t, Q2 t.mult 20 → P t) (pc : Cloud) {L : List (Ctxt Term)} (hR : Rows L.length (fun j => L.getD j []) F)
    (pR : ∀ row ∈ L, Past P row) : Ensures (reduceMulsquary freeScheme pc L) (Past P) := by
  have e : ∀ k (h : k < L.length), L.getD k [] = L[k] := fun k h => by simp [List.getD, h]
  have pR' : ∀ j, j < L.length → Past P (L.getD j []) := fun j hj => by rw [e j hj]; exact pR _ (List.getElem_mem _)
  unfold reduceMulsquary
  refine Ensures.idx.bind fun m0 ⟨h0, e0⟩ => ?_
  refine Ensures.idx.bind fun m1 ⟨h1, e1⟩ => ?_
  have g0 : m0 = (fun j => L.getD j []) 0 := by rw [← e0]; exact (e 0 h0).symm
  have g1 : m1 = (fun j => L.getD j []) 1 := by rw [← e1]; exact (e 1 h1).symm
  rw [g0, g1]
  refine (add_rows hP pc hR pR' h1 (hR.first h0) (pR' 0 h0)).bind ?_
  rintro z ⟨hz, pz⟩
  refine reduceLoop_rows hP pc hR pR' _ 2 z _ (by simp; omega) (fun k h => ?_) hz pz
  simp at h
  rw [e _ (by omega)]
  simp

/-! ### The table of products -/

/-- Encrypted words are samples given from outside, all different, and trivial words are zeros. -/
structure Sparse (x y : Ctxt Term) : Prop where
  inX : ∀ i, (wd x i).isTriv = false → ∃ a, (wd x i).ct = .ct (.input a)
  inY : ∀ i, (wd y i).isTriv = false → ∃ a, (wd y i).ct = .ct (.input a)
  injX : ∀ i i' t, (wd x i).ct = .ct t → (wd x i').ct = .ct t → i = i'
  injY : ∀ i i' t, (wd y i).ct = .ct t → (wd y i').ct = .ct t → i = i'
  apart : ∀ i j t, (wd x i).ct = .ct t → (wd y j).ct = .ct t → False
  zeroX : ∀ w ∈ x, w.isTriv = true → w.ct = .triv 0 ∧ w.msgMod = 32
  zeroY : ∀ w ∈ y, w.isTriv = true → w.ct = .triv 0 ∧ w.msgMod = 32

/-- the product of the words `u` and `v` -/
def Cell (pc : Cloud) (u v z : Word Term) : Prop :=
  (u.isTriv = true ∧ z = Word.mulConst freeScheme v 0) ∨
  (u.isTriv = false ∧ v.isTriv = true ∧ z = Word.mulConst freeScheme u 0) ∨
  (u.isTriv = false ∧ v.isTriv = false ∧
    Lut (accOf pc (lut2 lutMulBit)) (Word.add freeScheme (Word.mulConst freeScheme u 3) v) z)

theorem decrypt_zero {u : Word Term} (h : u.ct = .triv 0 ∧ u.msgMod = 32) :
    Ensures (decryptMi (S := freeScheme) none u) (· = 0) := by
  unfold decryptMi decryptMu
  rw [h.1, h.2]
  refine Ensures.bind (P := fun k => k = 0) (Ensures.pure (by decide)) ?_
  rintro _ rfl
  exact Ensures.pure (by decide)

theorem mulLwe_cell {u v : Word Term} (hu : u.isTriv = true → u.ct = .triv 0 ∧ u.msgMod = 32)
    (hv : v.isTriv = true → v.ct = .triv 0 ∧ v.msgMod = 32) : Ensures (mulLwe freeScheme pc u v) (Cell pc u v) := by
  unfold mulLwe
  refine Ensures.ite (fun h => (decrypt_zero (hu h)).bind ?_) fun h => ?_
  · rintro _ rfl; exact Ensures.pure (.inl ⟨h, rfl⟩)
  have h : u.isTriv = false := by simpa using h
  refine Ensures.ite (fun h' => (decrypt_zero (hv h')).bind ?_) fun h' => ?_
  · rintro _ rfl; exact Ensures.pure (.inr (.inl ⟨h, h', rfl⟩))
  have h' : v.isTriv = false := by simpa using h'
  exact lutUint.mono fun z hz => .inr (.inr ⟨h, h', hz⟩)

/-- what the word `p` of row `j` can be -/
def Kind (pc : Cloud) (x y : Ctxt Term) (j p : Nat) (v : Word Term) : Prop :=
  (v.isTriv = true ∧ ¬ (j ≤ p ∧ (wd x (p - j)).isTriv = false)) ∨
  (¬ (j ≤ p ∧ (wd x (p - j)).isTriv = false) ∧ ∃ b, (wd y j).ct = .ct (.input b) ∧ v.ct = .ct (.mulC (.input b) 0)) ∨
  (j ≤ p ∧ (wd y j).isTriv = true ∧ ∃ a, (wd x (p - j)).ct = .ct (.input a) ∧ v.ct = .ct (.mulC (.input a) 0)) ∨
  (j ≤ p ∧ ∃ a b, (wd x (p - j)).ct = .ct (.input a) ∧ (wd y j).ct = .ct (.input b) ∧
    v.ct = .ct (.boot (accOf pc (lut2 lutMulBit)) (.add (.mulC (.input a) 3) (.input b))))

variable {x y : Ctxt Term}

theorem Cell.kind (hs : Sparse x y) {j p : Nat} (hp : j ≤ p) {v : Word Term} (h : Cell pc (wd x (p - j)) (wd y j) v) :
    Kind pc x y j p v := by
  rcases h with ⟨h1, rfl⟩ | ⟨h1, h2, rfl⟩ | ⟨h1, h2, h3⟩
  · by_cases h2 : (wd y j).isTriv = true
    · exact .inl ⟨by rw [isTriv_mulConst]; exact h2, by simp [h1]⟩
    · obtain ⟨b, hb⟩ := hs.inY j (by simpa using h2)
      refine .inr (.inl ⟨by simp [h1], b, hb, ?_⟩)
      simp only [Word.mulConst, hb]
      rfl
  · obtain ⟨a, ha⟩ := hs.inX _ h1
    refine .inr (.inr (.inl ⟨hp, h2, a, ha, ?_⟩))
    simp only [Word.mulConst, ha]
    rfl
  · obtain ⟨a, ha⟩ := hs.inX _ h1
    obtain ⟨b, hb⟩ := hs.inY _ h2
    refine .inr (.inr (.inr ⟨hp, a, b, ha, hb, ?_⟩))
    have e : (Word.add freeScheme (Word.mulConst freeScheme (wd x (p - j)) 3) (wd y j)).ct =
        .ct (.add (.mulC (.input a) 3) (.input b)) := by
      simp only [Word.mulConst, ha, Word.add, hb]
      rfl
    rcases h3 with ⟨t, e1, e2⟩ | ⟨e1, _⟩
    · rw [e] at e1
      injection e1 with e1
      rw [e2, e1]
    · rw [not_triv_of_ct e] at e1; cases e1

theorem Kind.rows {m : Nat} {R : Nat → Ctxt Term} (hs : Sparse x y) (hk : ∀ j, j < m → ∀ p, Kind pc x y j p (wd (R j) p)) :
    Rows m R (fun j p => j ≤ p ∧ (wd x (p - j)).isTriv = false) where
  step j p h := by
    refine ⟨by omega, ?_⟩
    have := h.2
    rwa [show p + 1 - (j + 1) = p - j by omega] at this
  fresh j hj p := by
    rcases hk j hj p with ⟨h, _⟩ | ⟨_, b, _, h⟩ | ⟨_, _, a, _, h⟩ | ⟨_, a, b, _, _, h⟩
    · rw [wm_triv h]; exact One.zero
    · rw [wm_ct h]; exact One.zero.congr fun a => by simp [Term.mult]
    · rw [wm_ct h]; exact One.zero.congr fun a => by simp [Term.mult]
    · rw [wm_ct h]; exact mult_boot _ _
  noInput j hj p k := by
    rcases hk j hj p with ⟨h, _⟩ | ⟨_, b, _, h⟩ | ⟨_, _, a, _, h⟩ | ⟨_, a, b, _, _, h⟩
    · rw [wm_triv h]
    · rw [wm_ct h]; simp [Term.mult]
    · rw [wm_ct h]; simp [Term.mult]
    · rw [wm_ct h]; simp [Term.mult]
  dead j hj p hF a := by
    rcases hk j hj p with ⟨h, _⟩ | ⟨_, b, _, h⟩ | ⟨hp, _, a, ha, h⟩ | ⟨hp, a, b, ha, _, h⟩
    · rw [wm_triv h]
    · rw [wm_ct h]; simp [Term.mult]
    · exact absurd ⟨hp, not_triv_of_ct ha⟩ hF
    · exact absurd ⟨hp, not_triv_of_ct ha⟩ hF
  triv j hj p ht := by
    rcases hk j hj p with ⟨_, h⟩ | ⟨h, _⟩ | ⟨_, _, a, _, h⟩ | ⟨_, a, b, _, _, h⟩
    · exact h
    · exact h
    · rw [not_triv_of_ct h] at ht; cases ht
    · rw [not_triv_of_ct h] at ht; cases ht
  tag j hj p hF := by
    rcases hk j hj p with ⟨_, h⟩ | ⟨h, _⟩ | ⟨hp, hy, a, ha, h⟩ | ⟨hp, a, b, ha, hb, h⟩
    · exact absurd hF h
    · exact absurd hF h
    · refine ⟨.input a, by rw [ws_ct h]; simp [Term.samples], ?_, fun j' hj' hc => ?_⟩
      · rintro ⟨_, _, e, _⟩; cases e
      · rcases hk j' (by omega) (p + 1) with ⟨g, _⟩ | ⟨_, b', hb', g⟩ | ⟨hp', _, a', ha', g⟩ | ⟨_, a', b', _, _, g⟩
        · rw [ws_triv g] at hc; simp at hc
        · rw [ws_ct g] at hc
          simp only [Term.samples, Finset.mem_singleton] at hc
          rw [hc] at ha
          exact hs.apart _ _ _ ha hb'
        · rw [ws_ct g] at hc
          simp only [Term.samples, Finset.mem_singleton] at hc
          rw [hc] at ha
          have := hs.injX _ _ _ ha ha'
          omega
        · rw [ws_ct g] at hc
          simp [Term.samples] at hc
    · refine ⟨_, by rw [ws_ct h]; exact Finset.mem_singleton_self _, ?_, fun j' hj' hc => ?_⟩
      · rintro ⟨_, _, e, g⟩
        injection e with _ e
        have := g a
        rw [← e] at this
        have hne : a ≠ b := by rintro rfl; exact hs.apart _ _ _ ha hb
        simp [Term.mult, hne] at this
      · rcases hk j' (by omega) (p + 1) with ⟨g, _⟩ | ⟨_, b', hb', g⟩ | ⟨hp', _, a', ha', g⟩ | ⟨hp', a', b', ha', hb', g⟩
        · rw [ws_triv g] at hc; simp at hc
        · rw [ws_ct g] at hc
          simp [Term.samples] at hc
        · rw [ws_ct g] at hc
          simp [Term.samples] at hc
        · rw [ws_ct g] at hc
          simp only [Term.samples, Finset.mem_singleton, Term.boot.injEq, Term.add.injEq, Term.mulC.injEq, Term.input.injEq,
            true_and, and_true] at hc
          rw [hc.1] at ha
          rw [hc.2] at hb
          have h1 := hs.injX _ _ _ ha ha'
          omega
  apart j j' p p' hj hj' hne a := by
    rcases hk j hj p with ⟨h, _⟩ | ⟨_, b, _, h⟩ | ⟨_, _, c, _, h⟩ | ⟨hp, c, b, hc, hb, h⟩
    · left; rw [wm_triv h]
    · left; rw [wm_ct h]; simp [Term.mult]
    · left; rw [wm_ct h]; simp [Term.mult]
    rcases hk j' hj' p' with ⟨g, _⟩ | ⟨_, b', _, g⟩ | ⟨_, _, c', _, g⟩ | ⟨hp', c', b', hc', hb', g⟩
    · right; rw [wm_triv g]
    · right; rw [wm_ct g]; simp [Term.mult]
    · right; rw [wm_ct g]; simp [Term.mult]
    rw [wm_ct h, wm_ct g]
    simp only [Term.mult]
    by_cases ha : a = Term.boot (accOf pc (lut2 lutMulBit)) (.add (.mulC (.input c) 3) (.input b))
    · right
      rw [if_neg]
      rw [ha]
      intro e
      simp only [Term.boot.injEq, Term.add.injEq, Term.mulC.injEq, Term.input.injEq, true_and, and_true] at e
      rw [e.1] at hc
      rw [e.2] at hb
      have h1 := hs.injX _ _ _ hc hc'
      have h2 := hs.injY _ _ _ hb hb'
      omega
    · left; rw [if_neg ha]
  live j hj p a hne := by
    rcases hk j hj p with ⟨h, _⟩ | ⟨_, b, _, h⟩ | ⟨_, _, c, _, h⟩ | ⟨hp, c, b, hc, hb, h⟩
    · rw [wm_triv h] at hne; exact absurd rfl hne
    · rw [wm_ct h] at hne; simp [Term.mult] at hne
    · rw [wm_ct h] at hne; simp [Term.mult] at hne
    · rw [wm_ct h, Term.mult] at hne
      by_cases ha : a = Term.boot (accOf pc (lut2 lutMulBit)) (.add (.mulC (.input c) 3) (.input b))
      · rw [ha]
        rintro ⟨_, _, e, g⟩
        injection e with _ e
        have := g c
        rw [← e] at this
        have hne : c ≠ b := by rintro rfl; exact hs.apart _ _ _ hc hb
        simp [Term.mult, hne] at this
      · rw [if_neg ha] at hne; exact absurd rfl hne

theorem fill_kind (hs : Sparse x y) (hl : x.length = y.length) :
    Ensures (fillMulary freeScheme pc x y) fun rows => rows.length = x.length ∧
      ∀ j, j < rows.length → ∀ p, Kind pc x y j p (wd (rows.getD j []) p) := by
  refine (fill_exact (Cell pc) hl fun i j hi hj => ?_).mono ?_
  · exact mulLwe_cell (hs.zeroX _ (List.getElem_mem _)) (hs.zeroY _ (List.getElem_mem _))
  rintro rows ⟨h1, h2⟩
  refine ⟨h1, fun j hj p => ?_⟩
  obtain ⟨mid, hm, hr, hc⟩ := h2 j hj (by omega)
  have e : rows.getD j [] = trivCt Term pc j ++ mid ++ trivCt Term pc (x.length - j) := by
    rw [← hr]; simp [List.getD, hj]
  rw [e]
  have tl : ∀ k, (trivCt Term pc k).length = k := fun k => by simp [trivCt]
  have tt : ∀ k i, (wd (trivCt Term pc k) i).isTriv = true := by
    intro k i
    by_cases hi : i < k
    · rw [wd_lt (by rw [tl]; exact hi)]; simp [trivCt]; rfl
    · exact wd_ge_triv (by rw [tl]; omega)
  by_cases hp : p < j
  · refine .inl ⟨?_, by omega⟩
    rw [wd_append_left (by simp [tl]; omega), wd_append_left (by simp [tl]; omega)]
    exact tt _ _
  · by_cases hp2 : p - j < x.length
    · refine Cell.kind hs (by omega) ?_
      have := hc (p - j) (by omega) hp2
      rw [wd_append_left (by simp [tl]; omega)]
      have e2 : wd (trivCt Term pc j ++ mid) p = mid[p - j]'(by omega) := by
        have := wd_append_right (x := trivCt Term pc j) (y := mid) (p - j)
        rw [tl, show j + (p - j) = p by omega] at this
        rw [this, wd_lt (by omega)]
      rw [e2, wd_lt hp2, wd_lt (by omega)]
      exact this
    · refine .inl ⟨?_, ?_⟩
      · have := wd_append_right (x := trivCt Term pc j ++ mid) (y := trivCt Term pc (x.length - j)) (p - (j + x.length))
        rw [List.length_append, tl, hm, show j + x.length + (p - (j + x.length)) = p by omega] at this
        rw [this]; exact tt _ _
      · rw [wd_ge_triv (x := x) (i := p - j) (by omega)]; simp

/-- everything bootstrapped for the rows -/
theorem Kind.past (hP : ∀ t, Q2 t.mult 10 → P t) (hs : Sparse x y) {j p : Nat} {v : Word Term} (h : Kind pc x y j p v) : Hist P v := by
  rcases h with ⟨h, _⟩ | ⟨_, b, _, h⟩ | ⟨_, _, c, _, h⟩ | ⟨hp, c, b, hc, hb, h⟩
  · exact Hist.triv h
  · intro t e u hu; rw [h] at e; injection e with e; subst e; simp [Term.booted] at hu
  · intro t e u hu; rw [h] at e; injection e with e; subst e; simp [Term.booted] at hu
  · intro t e u hu
    rw [h] at e
    injection e with e
    subst e
    simp only [Term.booted, List.append_nil, List.mem_singleton] at hu
    subst hu
    refine hP _ ?_
    have hne : c ≠ b := by rintro rfl; exact hs.apart _ _ _ hc hb
    have inp : ∀ c, One (Term.input c).mult := fun c => ⟨.input c, by simp [Term.mult], fun b hb => by simp [Term.mult, hb]⟩
    refine (((inp c).q2.scale 3).disj (inp b).q2 (Disj.scale 3 fun a => ?_)).congr fun a => ?_
    · simp only [Term.mult]
      by_cases ha : a = .input c
      · right; rw [if_neg]; rw [ha]; simpa using hne
      · left; rw [if_neg ha]
    · simp only [Term.mult]
      rfl

theorem schoolbook_rows (hP : ∀ t, Q2 t.mult 20 → P t) (pc : Cloud) (hs : Sparse x y) (hl : x.length = y.length) :
    Ensures (mulSchoolbook freeScheme pc x y) (Past P) := by
  unfold mulSchoolbook
  refine (fill_kind hs hl).bind ?_
  rintro rows ⟨h1, h2⟩
  refine reduce_rows hP pc (Kind.rows hs h2) fun row hr => ?_
  obtain ⟨j, hj, rfl⟩ := List.mem_iff_getElem.1 hr
  intro p
  have := h2 j hj p
  rw [show rows.getD j [] = rows[j] by simp [List.getD, hj]] at this
  exact this.past (fun t ht => hP t (ht.mono (by decide))) hs

end

end Wt
end Parm
