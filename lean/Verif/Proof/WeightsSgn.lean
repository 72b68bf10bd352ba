import Verif.Proof.WeightsSep
import Verif.Model.Signum

/-!
# What signum, maximum, ReLU and rounding bootstrap
-/

namespace Parm
namespace Wt

variable {P : Term → Prop} {pc : Cloud} {x y : Ctxt Term}

/-- everything bootstrapped before satisfies `P`, and so does the word itself -/
def Now (P : Term → Prop) (w : Word Term) : Prop := Hist P w ∧ ∀ t, w.ct = .ct t → P t

theorem Now.triv {w : Word Term} (h : w.isTriv = true) : Now P w :=
  ⟨Hist.triv h, fun t e => by rw [not_triv_of_ct e] at h; cases h⟩

/-- the summand of the highest word of a group -/
def TopForm (pc : Cloud) (w : Word Term) (f : Term → Int) : Prop :=
  if 85 ≤ pc.params.quadWeight then ∀ a, f a = 8 * wm w a
  else One f ∧ ∀ b, f b ≠ 0 → ∃ acc t, b = .boot acc t ∧ w.ct = .ct t

theorem step_form {i : Nat} {b : Word Term} {c : Nat} {m : Word Term → Word Term}
    (hm : ∀ w a, wm (m w) a = c * wm w a) (hh : ∀ w, Hist P w → Hist P (m w)) (px : Past P x) (hb : Hist P b) :
    Ensures (if i < x.length then do
        let xi ← idx x i
        pure (Word.add freeScheme b (m xi))
      else pure b : M (Word Term)) fun z => Hist P z ∧ ∀ a, wm z a = wm b a + c * wm (wd x i) a := by
  refine Ensures.ite (fun h => ?_) fun h => Ensures.pure ⟨hb, fun a => ?_⟩
  · refine Ensures.idx.bind fun xi ⟨_, e⟩ => Ensures.pure ?_
    rw [← wd_lt h] at e
    subst e
    exact ⟨hb.add (hh _ (px i)), fun a => by rw [wm_add, hm]⟩
  · rw [wm_triv (wd_ge_triv (by omega))]; simp

theorem sgnFirst_form (px : Past P x) (hp : ¬ 85 ≤ pc.params.quadWeight → ∀ i t, (wd x i).ct = .ct t → P t) (j : Nat)
    {bj : Word Term} (hb : bj.isTriv = true) :
    Ensures (sgnFirst freeScheme pc x j bj) fun b => Hist P b ∧ ∃ f, TopForm pc (wd x (4 * j + 3)) f ∧
      ∀ a, wm b a = f a + (1 * wm (wd x (4 * j)) a + (2 * wm (wd x (4 * j + 1)) a + 4 * wm (wd x (4 * j + 2)) a)) := by
  unfold sgnFirst
  refine Ensures.bind (P := fun b => Hist P b ∧ ∃ f, TopForm pc (wd x (4 * j + 3)) f ∧ ∀ a, wm b a = f a) ?_ ?_
  · refine Ensures.ite (fun h => ?_) fun h => Ensures.pure ⟨Hist.triv hb, fun _ => 0, ?_, fun a => by rw [wm_triv hb]⟩
    · refine Ensures.idx.bind fun x3 ⟨_, e⟩ => ?_
      rw [← wd_lt h] at e
      subst e
      simp only [sgnGamma]
      refine Ensures.bind (P := fun s => Hist P s ∧ TopForm pc (wd x (4 * j + 3)) (wm s)) ?_ ?_
      · refine Ensures.ite (fun hq => Ensures.pure ⟨(px _).mulConst 8, ?_⟩) fun hq => ?_
        · unfold TopForm
          rw [if_pos hq]
          intro a; rw [wm_mulConst _ _ (by decide)]
        · refine lutUint.mono fun s hs => ⟨hs.hist (px _) (hp hq _), ?_⟩
          unfold TopForm
          rw [if_neg hq]
          refine ⟨hs.one, fun b hb => ?_⟩
          rcases hs with ⟨t, e1, e2⟩ | ⟨_, e2⟩
          · rw [wm_ct e2] at hb
            simp only [Term.mult] at hb
            split at hb
            · rename_i e; exact ⟨_, t, e, e1⟩
            · exact absurd rfl hb
          · rw [wm_triv e2] at hb; exact absurd rfl hb
      · rintro s ⟨h1, h2⟩
        refine Ensures.pure ⟨(Hist.triv hb).add h1, wm s, h2, fun a => ?_⟩
        rw [wm_add, wm_triv hb]; simp
    · have ht : (wd x (4 * j + 3)).isTriv = true := wd_ge_triv (by simp only [sgnGamma] at h; omega)
      unfold TopForm
      split
      · intro a; rw [wm_triv ht]; rfl
      · exact ⟨One.zero, fun b hb => absurd rfl hb⟩
  · rintro b ⟨h1, f, h2, h3⟩
    refine (step_form (i := 4 * j + 0) (c := 1) (m := fun w => w) (fun w a => by simp) (fun w h => h) px h1).bind ?_
    rintro b0 ⟨g1, g2⟩
    refine (step_form (i := 4 * j + 1) (c := 2) (m := fun w => Word.mulConst freeScheme w (2 ^ 1 : Nat))
      (fun w a => by rw [wm_mulConst _ _ (by decide)]; rfl) (fun w h => h.mulConst _) px g1).bind ?_
    rintro b1 ⟨k1, k2⟩
    refine (step_form (i := 4 * j + 2) (c := 4) (m := fun w => Word.mulConst freeScheme w (2 ^ 2 : Nat))
      (fun w a => by rw [wm_mulConst _ _ (by decide)]; rfl) (fun w h => h.mulConst _) px k1).mono ?_
    rintro b2 ⟨l1, l2⟩
    refine ⟨l1, f, h2, fun a => ?_⟩
    rw [l2, k2, g2, h3]
    push_cast
    simp only [Nat.add_zero]
    ring

theorem sgnNext_form (hx : ∀ i, Now P (wd x i)) (j : Nat) {bj : Word Term} (hb : bj.isTriv = true) :
    Ensures (sgnNext freeScheme pc x j bj) fun b => Hist P b ∧ L1 (wm b) 4 := by
  unfold sgnNext
  refine (Ensures.parFor (P := fun _ z => Hist P z ∧ L1 (wm z) 1) ?_).bind ?_
  · intro i hi
    refine Ensures.ite (fun h => ?_) fun h => Ensures.pure ?_
    · refine Ensures.idx.bind fun xi ⟨_, e⟩ => ?_
      rw [← wd_lt h] at e
      subst e
      exact lutUint.mono fun z hz => ⟨hz.hist (hx _).1 (hx _).2, hz.one.l1⟩
    · have ht : ((trivCt Term pc sgnGamma)[i]).isTriv = true := by simp [trivCt]; rfl
      exact ⟨Hist.triv ht, by rw [wm_triv ht]; exact One.zero.l1⟩
  · rintro s ⟨hl, hs⟩
    refine Ensures.pure ?_
    have hl : s.length = 4 := by rw [hl]; simp [trivCt, sgnGamma]
    have key : ∀ (l : List (Word Term)) (b : Word Term) (k : Nat), Hist P b → L1 (wm b) k →
        (∀ z ∈ l, Hist P z ∧ L1 (wm z) 1) →
        Hist P (l.foldl (Word.add freeScheme) b) ∧ L1 (wm (l.foldl (Word.add freeScheme) b)) (k + l.length) := by
      intro l
      induction l with
      | nil => intro b k h1 h2 _; exact ⟨h1, h2⟩
      | cons z l ih =>
        intro b k h1 h2 h3
        have hz := h3 z (by simp)
        have := ih (Word.add freeScheme b z) (k + 1) (h1.add hz.1) ((h2.add hz.2).congr (wm_add b z))
          fun y hy => h3 y (by simp [hy])
        simp only [List.foldl_cons, List.length_cons]
        rw [show k + (l.length + 1) = k + 1 + l.length by omega]
        exact this
    have := key s bj 0 (Hist.triv hb) (by rw [wm_triv hb]; exact L1.zero) fun z hz => by
      obtain ⟨i, hi, rfl⟩ := List.mem_iff_getElem.1 hz
      exact hs i hi
    rw [hl] at this
    exact this

theorem now_of_mem {x : Ctxt Term} (h : ∀ w ∈ x, Now P w) (i : Nat) : Now P (wd x i) := by
  by_cases hi : i < x.length
  · rw [wd_lt hi]; exact h _ (List.getElem_mem _)
  · exact Now.triv (wd_ge_triv (by omega))

/-- the rounds after the first one -/
theorem sgnRec_next (hP : ∀ t, L1 t.mult 4 → P t) : ∀ (fuel : Nat) (x : Ctxt Term), (∀ w ∈ x, Now P w) →
    Ensures (sgnRecursionRaw freeScheme pc fuel x false) fun s => ∀ w ∈ s, Now P w := by
  intro fuel
  induction fuel with
  | zero =>
    intro x hx
    unfold sgnRecursionRaw
    refine Ensures.ite (fun _ => Ensures.pure ?_) fun _ => Ensures.ite (fun _ => Ensures.pure hx) fun _ => Ensures.panic _
    intro w hw
    simp only [trivCt, List.mem_replicate] at hw
    rw [hw.2]; exact Now.triv rfl
  | succ fuel ih =>
    intro x hx
    unfold sgnRecursionRaw
    refine Ensures.ite (fun _ => Ensures.pure ?_) fun _ => Ensures.ite (fun _ => Ensures.pure hx) fun _ => ?_
    · intro w hw
      simp only [trivCt, List.mem_replicate] at hw
      rw [hw.2]; exact Now.triv rfl
    · refine (Ensures.parFor (P := fun _ b => Hist P b ∧ L1 (wm b) 4) ?_).bind ?_
      · intro j hj
        refine Ensures.ite (fun h => by cases h) fun _ => ?_
        exact sgnNext_form (now_of_mem hx) j (by simp [trivCt]; rfl)
      · rintro b ⟨_, hb⟩
        apply ih
        intro w hw
        obtain ⟨i, hi, rfl⟩ := List.mem_iff_getElem.1 hw
        exact ⟨(hb i hi).1, fun t e => hP t ((hb i hi).2.of_ct e)⟩

/-- all rounds, given what holds of the groups of the first one -/
theorem sgnRec_first (hP : ∀ t, L1 t.mult 4 → P t) (hx : ∀ i, Now P (wd x i))
    (hg : ∀ (j : Nat) (f : Term → Int) (b : Word Term), TopForm pc (wd x (4 * j + 3)) f →
      (∀ a, wm b a = f a + (1 * wm (wd x (4 * j)) a + (2 * wm (wd x (4 * j + 1)) a + 4 * wm (wd x (4 * j + 2)) a))) →
      ∀ t, b.ct = .ct t → P t) (fuel : Nat) :
    Ensures (sgnRecursionRaw freeScheme pc fuel x true) fun s => ∀ w ∈ s, Now P w := by
  have hx' : ∀ w ∈ x, Now P w := by
    intro w hw
    obtain ⟨i, hi, rfl⟩ := List.mem_iff_getElem.1 hw
    have := hx i
    rwa [wd_lt hi] at this
  have h0 : ∀ w ∈ trivCt Term pc 1, Now P w := by
    intro w hw
    simp only [trivCt, List.mem_replicate] at hw
    rw [hw.2]; exact Now.triv rfl
  cases fuel with
  | zero =>
    unfold sgnRecursionRaw
    exact Ensures.ite (fun _ => Ensures.pure h0) fun _ => Ensures.ite (fun _ => Ensures.pure hx') fun _ => Ensures.panic _
  | succ fuel =>
    unfold sgnRecursionRaw
    refine Ensures.ite (fun _ => Ensures.pure h0) fun _ => Ensures.ite (fun _ => Ensures.pure hx') fun _ => ?_
    refine (Ensures.parFor (P := fun _ b => Now P b) ?_).bind ?_
    · intro j hj
      refine Ensures.ite (fun _ => ?_) fun h => absurd rfl h
      refine (sgnFirst_form (fun i => (hx i).1) (fun _ i t e => (hx i).2 t e) j (by simp [trivCt]; rfl)).mono ?_
      rintro b ⟨h1, f, h2, h3⟩
      exact ⟨h1, hg j f b h2 h3⟩
    · rintro b ⟨_, hb⟩
      apply sgnRec_next hP
      intro w hw
      obtain ⟨i, hi, rfl⟩ := List.mem_iff_getElem.1 hw
      exact hb i hi

theorem TopForm.l1 {w : Word Term} {f : Term → Int} (h : TopForm pc w f) (hw : One (wm w)) :
    L1 f (if 85 ≤ pc.params.quadWeight then 8 else 1) := by
  unfold TopForm at h
  by_cases hq : 85 ≤ pc.params.quadWeight
  · rw [if_pos hq] at h ⊢
    exact (hw.l1.scale 8).congr h
  · rw [if_neg hq] at h ⊢
    exact h.1.l1

/-- groups of single samples -/
theorem group_L1 (hx : Fresh x) (j : Nat) {f : Term → Int} {b : Word Term} (hf : TopForm pc (wd x (4 * j + 3)) f)
    (hb : ∀ a, wm b a = f a + (1 * wm (wd x (4 * j)) a + (2 * wm (wd x (4 * j + 1)) a + 4 * wm (wd x (4 * j + 2)) a))) :
    L1 (wm b) (if 85 ≤ pc.params.quadWeight then 15 else 8) := by
  refine (((hf.l1 (hx _)).add (((hx (4 * j)).l1.scale 1).add (((hx (4 * j + 1)).l1.scale 2).add
    ((hx (4 * j + 2)).l1.scale 4)))).congr hb).mono ?_
  split <;> decide

/-- groups of different samples -/
theorem group_Q2 (hx : Fresh x) (sx : Sep x) (nx : NoChild x) (j : Nat) {f : Term → Int} {b : Word Term}
    (hf : TopForm pc (wd x (4 * j + 3)) f)
    (hb : ∀ a, wm b a = f a + (1 * wm (wd x (4 * j)) a + (2 * wm (wd x (4 * j + 1)) a + 4 * wm (wd x (4 * j + 2)) a))) :
    Q2 (wm b) (if 85 ≤ pc.params.quadWeight then 85 else 22) := by
  have h1 : Q2 (fun a => 1 * wm (wd x (4 * j)) a + (2 * wm (wd x (4 * j + 1)) a + 4 * wm (wd x (4 * j + 2)) a)) 21 := by
    refine ((hx (4 * j)).q2.scale 1).disj (((hx (4 * j + 1)).q2.scale 2).disj ((hx (4 * j + 2)).q2.scale 4) ?_) ?_
    · exact Disj.scale _ (Disj.symm (Disj.scale _ (sx _ _ (by omega))))
    · exact Disj.scale _ (Disj.symm (Disj.add (Disj.scale _ (sx _ _ (by omega))) (Disj.scale _ (sx _ _ (by omega)))))
  have key : ∀ g, (∀ i, i ≠ 4 * j + 3 → Disj (wm (wd x i)) g) →
      Disj (fun a => 1 * wm (wd x (4 * j)) a + (2 * wm (wd x (4 * j + 1)) a + 4 * wm (wd x (4 * j + 2)) a)) g := by
    intro g hg
    exact Disj.add (Disj.scale _ (hg _ (by omega))) (Disj.add (Disj.scale _ (hg _ (by omega))) (Disj.scale _ (hg _ (by omega))))
  unfold TopForm at hf
  by_cases hq : 85 ≤ pc.params.quadWeight
  · rw [if_pos hq] at hf ⊢
    have h2 : Q2 f 64 := ((hx (4 * j + 3)).q2.scale 8).congr hf
    refine (h2.disj h1 (key f fun i hi => ?_).symm).congr hb
    exact (Disj.symm (Disj.scale 8 (sx (4 * j + 3) i (Ne.symm hi)))).congr (fun _ => rfl) hf
  · rw [if_neg hq] at hf ⊢
    refine (hf.1.q2.disj h1 (key f fun i hi => ?_).symm).congr hb
    intro a
    by_cases ha : f a = 0
    · right; exact ha
    · left
      obtain ⟨acc, t, rfl, e⟩ := hf.2 a ha
      exact nx i _ t acc e

/-- everything bootstrapped by `sgn`, given what holds of the groups of the first round -/
theorem sgn_now (hP : ∀ t, L1 t.mult 4 → P t) (hx : ∀ i, Now P (wd x i)) (fx : Fresh x)
    (hg : ∀ (j : Nat) (f : Term → Int) (b : Word Term), TopForm pc (wd x (4 * j + 3)) f →
      (∀ a, wm b a = f a + (1 * wm (wd x (4 * j)) a + (2 * wm (wd x (4 * j + 1)) a + 4 * wm (wd x (4 * j + 2)) a))) →
      ∀ t, b.ct = .ct t → P t) :
    Ensures (sgnImpl freeScheme pc x) fun s => Past P s ∧ Fresh s ∧
      (x.length ≠ 1 → ∀ i a, wm (wd s i) a ≠ 0 → ∃ acc t, a = .boot acc t) := by
  unfold sgnImpl
  refine Ensures.ite (fun _ => Ensures.pure ?_) fun _ => Ensures.ite (fun h1 => Ensures.pure ?_) fun _ => ?_
  · refine ⟨past_iff.2 (by simp [ctZero, emptyCt]), fun i => ?_, fun _ i a ha => ?_⟩
    · rw [wm_triv (wd_ge_triv (by simp [ctZero, emptyCt]))]; exact One.zero
    · rw [wm_triv (wd_ge_triv (by simp [ctZero, emptyCt]))] at ha; exact absurd rfl ha
  · exact ⟨fun i => (hx i).1, fx, fun h => absurd h1 h⟩
  · refine (sgnRec_first hP hx hg _).bind fun s hs => ?_
    refine Ensures.idx.bind fun s0 ⟨hi, e⟩ => ?_
    have h0 : Now P s0 := by rw [← e]; exact hs _ (List.getElem_mem _)
    refine lutUint.bind fun z hz => Ensures.pure ⟨?_, fun i => ?_, fun _ i a ha => ?_⟩
    · rw [past_iff]
      intro w hw
      simp only [singleCt, List.mem_singleton] at hw
      rw [hw]; exact hz.hist h0.1 h0.2
    · by_cases hi : i < 1
      · obtain rfl : i = 0 := by omega
        rw [wd_lt (by simp [singleCt])]
        exact hz.one
      · rw [wm_triv (wd_ge_triv (by simp [singleCt]; omega))]; exact One.zero
    · by_cases hi : i < 1
      · obtain rfl : i = 0 := by omega
        rw [wd_lt (by simp [singleCt])] at ha
        simp only [singleCt, List.getElem_singleton] at ha
        rcases hz with ⟨t, e1, e2⟩ | ⟨_, e2⟩
        · rw [wm_ct e2] at ha
          simp only [Term.mult] at ha
          split at ha
          · rename_i e; exact ⟨_, t, e⟩
          · exact absurd rfl ha
        · rw [wm_triv e2] at ha; exact absurd rfl ha
      · rw [wm_triv (wd_ge_triv (by simp [singleCt]; omega))] at ha; exact absurd rfl ha

/-! ## Maximum, ReLU, rounding -/

theorem One.ext_disj {f g : Term → Int} (hf : Ext f) (hg : ∀ a, g a ≠ 0 → ∃ acc t, a = .boot acc t) : Disj f g := by
  intro a
  by_cases h : g a = 0
  · right; exact h
  · obtain ⟨acc, t, rfl⟩ := hg a h
    left; exact hf acc t

theorem Lut.boot {acc : List (BitVec 64)} {w z : Word Term} (h : Lut acc w z) (a : Term) (ha : wm z a ≠ 0) :
    ∃ acc t, a = .boot acc t := by
  rcases h with ⟨t, e1, e2⟩ | ⟨_, e2⟩
  · rw [wm_ct e2] at ha
    simp only [Term.mult] at ha
    split at ha
    · rename_i e; exact ⟨_, t, e⟩
    · exact absurd rfl ha
  · rw [wm_triv e2] at ha; exact absurd rfl ha

/-- padding with trivial zeros changes nothing -/
theorem wd_pad (x : Ctxt Term) (k i : Nat) :
    wm (wd (x ++ List.replicate k (encryptWordTriv Term pc 0)) i) = wm (wd x i) ∧
    ∀ P, Hist P (wd x i) → Hist P (wd (x ++ List.replicate k (encryptWordTriv Term pc 0)) i) := by
  by_cases hi : i < x.length
  · have e : wd (x ++ List.replicate k (encryptWordTriv Term pc 0)) i = wd x i := by
      rw [wd_lt (by simp; omega), List.getElem_append_left hi, wd_lt hi]
    rw [e]; exact ⟨rfl, fun _ h => h⟩
  · have e : (wd (x ++ List.replicate k (encryptWordTriv Term pc 0)) i).isTriv = true := by
      by_cases h2 : i < x.length + k
      · rw [wd_lt (by simpa using h2), List.getElem_append_right (by omega)]; simp; rfl
      · exact wd_ge_triv (by simp; omega)
    rw [wm_triv e, wm_triv (wd_ge_triv (by omega))]
    exact ⟨rfl, fun _ _ => Hist.triv e⟩

/-- the maximum, given what holds of the difference and of the words selected -/
theorem max_now (hP : ∀ t, L1 t.mult 4 → P t) (px : Past P x) (py : Past P y) (fx : Fresh x) (fy : Fresh y)
    (hs : Ensures (ctSub freeScheme pc x y) fun r => Past P r ∧ Fresh r ∧
      ∀ (j : Nat) (f : Term → Int) (b : Word Term), TopForm pc (wd r (4 * j + 3)) f →
        (∀ a, wm b a = f a + (1 * wm (wd r (4 * j)) a + (2 * wm (wd r (4 * j + 1)) a + 4 * wm (wd r (4 * j + 2)) a))) →
        ∀ t, b.ct = .ct t → P t)
    (hm : 41 ≤ pc.params.quadWeight → ∀ (i : Nat) (g : Term → Int) (b : Word Term), One g →
      (∀ a, g a ≠ 0 → ∃ acc t, a = .boot acc t) → (∀ a, wm b a = 6 * wm (wd y i) a + 2 * wm (wd x i) a + g a) →
      ∀ t, b.ct = .ct t → P t) :
    Ensures (maxImpl freeScheme pc x y) fun z => Past P z ∧ Fresh z := by
  unfold maxImpl
  refine hs.bind ?_
  rintro r ⟨pr, fr, hg⟩
  have hr : ∀ i, Now P (wd r i) := fun i => ⟨pr i, fun t e => hP t (((fr i).l1.mono (by decide)).of_ct e)⟩
  refine (sgnRec_first hP hr hg _).bind fun sRaw hsr => ?_
  refine Ensures.idx.bind fun s0 ⟨hi0, e0⟩ => ?_
  have h0 : Now P s0 := by rw [← e0]; exact hsr _ (List.getElem_mem _)
  refine Ensures.bind (P := fun s => Hist P s ∧ One (wm s) ∧ ∀ a, wm s a ≠ 0 → ∃ acc t, a = .boot acc t) ?_ ?_
  · unfold pbsNonneg
    refine lutFloat.bind fun h hh => Ensures.pure ⟨(hh.hist h0.1 h0.2).addHalf, ?_, ?_⟩
    · exact hh.one.congr (wm_addHalf h)
    · intro a ha; rw [wm_addHalf] at ha; exact hh.boot a ha
  · rintro s ⟨s1, s2, s3⟩
    refine (Ensures.parFor (P := fun _ z => Hist P z ∧ One (wm z)) ?_).mono ?_
    · intro i hi
      refine Ensures.idx.bind fun xi ⟨h1, e1⟩ => Ensures.idx.bind fun yi ⟨h2, e2⟩ => ?_
      rw [← wd_lt h1] at e1
      rw [← wd_lt h2] at e2
      obtain ⟨mx, px'⟩ := wd_pad (pc := pc) x (y.length - x.length) i
      obtain ⟨my, py'⟩ := wd_pad (pc := pc) y (x.length - y.length) i
      rw [e1] at mx px'
      rw [e2] at my py'
      have hxi := px' P (px i)
      have hyi := py' P (py i)
      have ox : One (wm xi) := by rw [mx]; exact fx i
      have oy : One (wm yi) := by rw [my]; exact fy i
      refine Ensures.bind (P := fun t => Hist P t ∧ if 41 ≤ pc.params.quadWeight then ∀ a, wm t a = 6 * wm yi a
        else One (wm t)) ?_ ?_
      · refine Ensures.ite (fun hq => Ensures.pure ⟨hyi.mulConst 6, ?_⟩) fun hq => ?_
        · rw [if_pos hq]; intro a; rw [wm_mulConst _ _ (by decide)]
        · refine lutUint.mono fun t ht => ⟨ht.hist hyi fun u e => hP u ((oy.l1.mono (by decide)).of_ct e), ?_⟩
          rw [if_neg hq]; exact ht.one
      · rintro t ⟨t1, t2⟩
        have hh : Hist P (Word.add freeScheme (Word.add freeScheme t (Word.mulConst freeScheme xi 2)) s) :=
          (t1.add (hxi.mulConst 2)).add s1
        refine lutUint.mono fun z hz => ⟨hz.hist hh fun u e => ?_, hz.one⟩
        by_cases hq : 41 ≤ pc.params.quadWeight
        · rw [if_pos hq] at t2
          refine hm hq i (wm s) _ s2 s3 (fun a => ?_) u e
          rw [wm_add, wm_add, wm_mulConst _ _ (by decide), t2, mx, my]
        · rw [if_neg hq] at t2
          refine hP u (L1.of_ct ?_ e)
          refine ((t2.l1.add (ox.l1.scale 2)).add s2.l1).congr fun a => ?_
          rw [wm_add, wm_add, wm_mulConst _ _ (by decide)]
    · rintro z ⟨_, hz⟩
      have : ∀ i, Hist P (wd z i) ∧ One (wm (wd z i)) := by
        intro i
        by_cases hi : i < z.length
        · rw [wd_lt hi]; exact hz i hi
        · rw [wm_triv (wd_ge_triv (by omega))]; exact ⟨Hist.triv (wd_ge_triv (by omega)), One.zero⟩
      exact ⟨fun i => (this i).1, fun i => (this i).2⟩

theorem wd_take (x : Ctxt Term) (k i : Nat) : wd (x.take k) i = if i < k then wd x i else ⟨.triv 0, 0⟩ := by
  unfold wd
  simp only [List.getD, List.getElem?_take]
  split <;> rfl

theorem wd_drop (x : Ctxt Term) (k i : Nat) : wd (x.drop k) i = wd x (k + i) := by
  unfold wd
  simp [List.getD, List.getElem?_drop]

theorem wm_none : wm ⟨.triv 0, 0⟩ = fun _ => 0 := rfl

theorem wd_shift (x : Ctxt Term) (k i : Nat) :
    wm (wd (ctShift pc x k) i) = (if i < k then fun _ => 0 else wm (wd x (i - k))) ∧
    ∀ P, Past P x → Hist P (wd (ctShift pc x k) i) := by
  unfold ctShift
  by_cases hk : k = 0
  · subst hk
    simp only [if_true, Nat.not_lt_zero, if_false, Nat.sub_zero, true_and]
    exact fun P h => h i
  · rw [if_neg hk]
    by_cases hi : i < k
    · have e : wd (trivCt Term pc k ++ x) i = encryptWordTriv Term pc 0 := by
        rw [wd_lt (by simp [trivCt]; omega), List.getElem_append_left (by simpa [trivCt] using hi)]
        simp [trivCt]
      rw [e, if_pos hi]
      exact ⟨rfl, fun _ _ => Hist.triv rfl⟩
    · have e : wd (trivCt Term pc k ++ x) i = wd x (i - k) := by
        unfold wd
        simp only [List.getD]
        rw [List.getElem?_append_right (by simp [trivCt]; omega)]
        simp [trivCt]
      rw [e, if_neg hi]
      exact ⟨rfl, fun _ h => h _⟩

theorem Fresh.shift (h : Fresh x) (k : Nat) : Fresh (ctShift pc x k) := by
  intro i
  rw [(wd_shift x k i).1]
  split
  · exact One.zero
  · exact h _

theorem Sep.shift (h : Sep x) (k : Nat) : Sep (ctShift pc x k) := by
  intro i j hij
  rw [(wd_shift x k i).1, (wd_shift x k j).1]
  split
  · exact Disj.zero
  · split
    · exact Disj.zero.symm
    · exact h _ _ (by omega)

theorem Past.shift (h : Past P x) (k : Nat) : Past P (ctShift pc x k) := fun i => (wd_shift x k i).2 P h

theorem Fresh.take (h : Fresh x) (k : Nat) : Fresh (x.take k) := by
  intro i; rw [wd_take]; split
  · exact h i
  · exact One.zero
theorem Fresh.drop (h : Fresh x) (k : Nat) : Fresh (x.drop k) := fun i => by rw [wd_drop]; exact h _
theorem Past.take (h : Past P x) (k : Nat) : Past P (x.take k) := by
  intro i; rw [wd_take]; split
  · exact h i
  · exact Hist.triv rfl
theorem Past.drop (h : Past P x) (k : Nat) : Past P (x.drop k) := fun i => by rw [wd_drop]; exact h _
theorem Sep.take (h : Sep x) (k : Nat) : Sep (x.take k) := by
  intro i j hij; rw [wd_take, wd_take]; split
  · split
    · exact h i j hij
    · exact Disj.zero.symm
  · exact Disj.zero
theorem Sep.drop (h : Sep x) (k : Nat) : Sep (x.drop k) := fun i j hij => by rw [wd_drop, wd_drop]; exact h _ _ (by omega)

/-- the words of a single encrypted word above trivial zeros -/
theorem wd_top (k : Nat) (w : Word Term) (i : Nat) :
    wd (trivCt Term pc k ++ [w]) i = w ∨ (wd (trivCt Term pc k ++ [w]) i).isTriv = true := by
  by_cases hi : i < k
  · right
    rw [wd_lt (by simp [trivCt]; omega), List.getElem_append_left (by simpa [trivCt] using hi)]
    simp [trivCt]; rfl
  · by_cases hk : i = k
    · subst hk
      left
      rw [wd_lt (by simp [trivCt]), List.getElem_append_right (by simp [trivCt])]; simp
    · right; exact wd_ge_triv (by simp [trivCt]; omega)

/-- rounding, given what holds of the sign of the lower part and of the addition -/
theorem round_now (hP : ∀ t, L1 t.mult 4 → P t) (px : Past P x) (fx : Fresh x) (pos : Nat)
    (hs : Ensures (ctSgn freeScheme pc (x.take (pos - 1))) fun s => Past P s ∧ Fresh s)
    (ha : ∀ (w : Word Term), Hist P w → One (wm w) → (∀ a, wm w a ≠ 0 → ∃ acc t, a = .boot acc t) →
      Ensures (ctAdd freeScheme pc (ctShift pc (x.drop pos) pos) (trivCt Term pc pos ++ [w]))
        fun z => Past P z ∧ Fresh z) :
    Ensures (roundAtImpl freeScheme pc x pos) fun z => Past P z ∧ Fresh z := by
  unfold roundAtImpl
  refine Ensures.ite (fun _ => Ensures.pure ⟨px, fx⟩) fun _ => Ensures.ite (fun _ => Ensures.pure ?_) fun _ => ?_
  · refine ⟨past_iff.2 (by simp [ctZero, emptyCt]), fun i => ?_⟩
    rw [wm_triv (wd_ge_triv (by simp [ctZero, emptyCt]))]; exact One.zero
  · refine hs.bind ?_
    rintro s ⟨ps, fs⟩
    refine Ensures.idx.bind fun xp ⟨h1, e1⟩ => ?_
    rw [← wd_lt h1] at e1
    subst e1
    refine Ensures.bind (P := fun w => Hist P w ∧ L1 (wm w) 3) ?_ ?_
    · have l2 : L1 (wm (Word.mulConst freeScheme (wd x (pos - 1)) 2)) 2 :=
        ((fx (pos - 1)).l1.scale 2).congr fun a => wm_mulConst _ _ (by decide) a
      refine Ensures.ite (fun _ => ?_) fun _ => Ensures.pure ⟨(px _).mulConst 2, l2.mono (by decide)⟩
      refine Ensures.idx.bind fun s0 ⟨h2, e2⟩ => Ensures.pure ?_
      rw [← wd_lt h2] at e2
      subst e2
      exact ⟨((px _).mulConst 2).add (ps 0), (l2.add (fs 0).l1).congr fun a => wm_add _ _ a⟩
    · rintro yys ⟨g1, g2⟩
      refine lutUint.bind fun rw hrw => ?_
      exact ha rw (hrw.hist g1 fun t e => hP t ((g2.mono (by decide)).of_ct e)) hrw.one hrw.boot

end Wt
end Parm
