import Verif.Proof.Errors
import Verif.Proof.WeightsProg
import Verif.Proof.MergedOps
import Verif.Proof.NN

/-!
# Tails of the errors of combinations, and the union bound
-/

namespace Parm
namespace Err
open MeasureTheory ProbabilityTheory

section
variable {Ω : Type} [MeasurableSpace Ω] {μ : Measure Ω}

theorem subG_mono {X : Ω → ℝ} {c c' : NNReal} (h : HasSubgaussianMGF X c μ) (hc : c ≤ c') : HasSubgaussianMGF X c' μ where
  integrable_exp_mul := h.integrable_exp_mul
  mgf_le t := (h.mgf_le t).trans (by
    have : (c : ℝ) ≤ c' := hc
    gcongr)

/-- both tails -/
theorem two_sided [IsProbabilityMeasure μ] {X : Ω → ℤ} {c : NNReal} (h : HasSubgaussianMGF (fun ω => (X ω : ℝ)) c μ) {R : Nat}
    (hR : R ≤ 2 ^ 58) : μ.real {ω | ¬ (X ω).natAbs + R < 2 ^ 58} ≤ tail R c := by
  have hε : (0 : ℝ) ≤ 2 ^ 58 - R := by
    have : (R : ℝ) ≤ 2 ^ 58 := by exact_mod_cast hR
    linarith
  have h1 := h.measure_ge_le hε
  have h2 := h.neg.measure_ge_le hε
  have hs : {ω | ¬ (X ω).natAbs + R < 2 ^ 58} ⊆ {ω | (2 : ℝ) ^ 58 - R ≤ X ω} ∪ {ω | (2 : ℝ) ^ 58 - R ≤ (-fun ω => (X ω : ℝ)) ω} := by
    intro ω hω
    have hω : ¬ (X ω).natAbs + R < 2 ^ 58 := hω
    rcases (by omega : (2 : ℤ) ^ 58 - R ≤ X ω ∨ (2 : ℤ) ^ 58 - R ≤ - X ω) with h | h
    · left
      show (2 : ℝ) ^ 58 - R ≤ X ω
      exact_mod_cast h
    · right
      show (2 : ℝ) ^ 58 - R ≤ -(X ω : ℝ)
      exact_mod_cast h
  refine (measureReal_mono hs).trans ((measureReal_union_le _ _).trans ?_)
  unfold tail
  linarith

variable {S : Ω → Scheme} {ck : ∀ ω, ClientKey (S ω)} {N : Nat} {err : ℕ → Ω → ℤ} {mask : Term → Ω → ℤ} {V Vd : NNReal} {R : Nat}
  {U : Set Term}

/-- a scaled error -/
theorem const_mul' {X : Ω → ℝ} {c : NNReal} (h : HasSubgaussianMGF X c μ) (r : ℝ) :
    HasSubgaussianMGF (fun ω => r * X ω) (Real.toNNReal (r ^ 2) * c) μ :=
  subG_mono (h.const_mul r) (by
    rw [← NNReal.coe_le_coe]
    rw [NNReal.coe_mul (Real.toNNReal (r ^ 2)) c, Real.coe_toNNReal _ (sq_nonneg r)]
    exact le_refl (r ^ 2 * (c : ℝ)))

/-- the sum of squares -/
theorem sum_sq (t : Term) : (∑ k : t.comb.1.support, Real.toNNReal (((t.comb.1 k : ℤ) : ℝ) ^ 2)) = (t.mergedWeight : NNReal) := by
  apply NNReal.coe_injective
  unfold Term.mergedWeight
  push_cast
  rw [← Finset.sum_coe_sort t.comb.1.support]
  refine Finset.sum_congr rfl fun k _ => ?_
  rw [Real.coe_toNNReal _ (sq_nonneg _), Nat.cast_natAbs, ← Int.cast_pow, ← Int.cast_pow, sq_abs]

/-- what a bootstrap has to tolerate -/
theorem sub_boot (h : RandomErrors μ S ck N err mask V Vd R U) {t : Term} (ht : t ∈ U) :
    HasSubgaussianMGF (fun ω => ((mask t ω - t.noise fun k => err k ω : ℤ) : ℝ)) (t.mergedWeight * V + Vd) μ := by
  classical
  let coef : Option t.comb.1.support → ℝ := fun i => i.elim 1 fun k => -(t.comb.1 k : ℝ)
  let par : Option t.comb.1.support → NNReal := fun i => Real.toNNReal (coef i ^ 2) * i.elim Vd fun _ => V
  have hi := (h.indep t ht).comp (fun i x => coef i * x) fun i => measurable_const_mul _
  have hsub : ∀ i : Option t.comb.1.support, HasSubgaussianMGF ((fun x => coef i * x) ∘
      fun ω => ((i.elim (mask t ω) fun k => err k ω : ℤ) : ℝ)) (par i) μ := by
    intro i
    cases i with
    | none => exact const_mul' (h.subMask t ht) _
    | some k => exact const_mul' (h.sub k) _
  have key := HasSubgaussianMGF.sum_of_iIndepFun hi (s := Finset.univ) (c := par) fun i _ => hsub i
  have e1 : ∑ i, par i = t.mergedWeight * V + Vd := by
    rw [Fintype.sum_option, add_comm, ← sum_sq, Finset.sum_mul]
    congr 1
    · refine Finset.sum_congr rfl fun k _ => ?_
      show Real.toNNReal ((-(t.comb.1 k : ℝ)) ^ 2) * V = _
      rw [neg_sq]
    · show Real.toNNReal ((1 : ℝ) ^ 2) * Vd = Vd
      rw [one_pow, Real.toNNReal_one, one_mul]
  rw [e1] at key
  refine key.congr (Filter.Eventually.of_forall fun ω => ?_)
  simp only [Function.comp_apply]
  rw [Fintype.sum_option]
  unfold Term.noise
  rw [← Finset.sum_coe_sort t.comb.1.support]
  push_cast
  show (1 : ℝ) * (mask t ω : ℝ) + ∑ k : t.comb.1.support, -(t.comb.1 k : ℝ) * (err k ω : ℝ) = _
  simp only [neg_mul, Finset.sum_neg_distrib]
  ring

/-- a word that is one sample -/
theorem sub_one [IsProbabilityMeasure μ] (h : ∀ k, HasSubgaussianMGF (fun ω => (err k ω : ℝ)) V μ) {t : Term} (ht : t.mergedWeight ≤ 1) :
    HasSubgaussianMGF (fun ω => ((t.noise fun k => err k ω : ℤ) : ℝ)) V μ := by
  have pos : ∀ k ∈ t.comb.1.support, 1 ≤ (t.comb.1 k).natAbs ^ 2 := fun k hk =>
    Nat.one_le_pow _ _ (Int.natAbs_pos.2 (Finsupp.mem_support_iff.1 hk))
  have hc : t.comb.1.support.card ≤ 1 := by
    refine le_trans ?_ ht
    unfold Term.mergedWeight
    rw [Finset.card_eq_sum_ones]
    exact Finset.sum_le_sum pos
  rcases Finset.card_le_one_iff_subset_singleton.1 hc with ⟨k, hk⟩
  rcases Finset.subset_singleton_iff.1 hk with e | e
  · have : (fun ω => ((t.noise fun k => err k ω : ℤ) : ℝ)) = fun _ => 0 := by
      funext ω
      unfold Term.noise
      rw [e]; simp
    rw [this]
    exact subG_mono HasSubgaussianMGF.fun_zero zero_le
  · have : (fun ω => ((t.noise fun k => err k ω : ℤ) : ℝ)) = fun ω => (t.comb.1 k : ℝ) * (err k ω : ℝ) := by
      funext ω
      unfold Term.noise
      rw [e]; simp
    rw [this]
    refine subG_mono (const_mul' (h k) _) ?_
    have h1 : (t.comb.1 k).natAbs ^ 2 ≤ 1 := by
      refine le_trans ?_ ht
      unfold Term.mergedWeight
      rw [e, Finset.sum_singleton]
    refine mul_le_of_le_one_left zero_le (Real.toNNReal_le_one.2 ?_)
    have h2 : (t.comb.1 k) ^ 2 ≤ 1 := by
      rw [← Int.natAbs_sq]; exact_mod_cast h1
    exact_mod_cast h2

end

/-! ### Counting -/

/-- encryption into terms gives inputs -/
theorem free_inputsVec (msgMod : Nat) (seed : Nat → Nat) : ∀ (i : Nat) (v : List Int),
    Ensures (parmEncryptFromVec freeKey msgMod seed i v) fun x => ∀ w ∈ x, w.msgMod = msgMod ∧ ∃ i, w.ct = .ct (.input i)
  | _, [] => Ensures.pure fun _ h => by cases h
  | i, a :: v => by
    unfold parmEncryptFromVec
    refine Ensures.ite (fun _ => Ensures.err _) fun _ => (free_inputsVec msgMod seed (i + 1) v).bind fun c hc => Ensures.pure ?_
    intro w hw
    rcases List.mem_cons.1 hw with rfl | hw
    · exact ⟨rfl, _, rfl⟩
    · exact hc w hw

theorem free_inputs (msgMod : Nat) (build : Build) : ∀ (ms : List (Int × Nat)) (seed : Nat → Nat),
    Ensures (encryptInputs freeKey msgMod build seed ms) fun xs => ∀ x ∈ xs, ∀ w ∈ x, w.msgMod = msgMod ∧ ∃ i, w.ct = .ct (.input i)
  | [], _ => Ensures.pure fun _ h => by cases h
  | (m, w) :: ms, seed => by
    unfold encryptInputs
    refine Ensures.bind (P := fun x => ∀ w ∈ x, w.msgMod = msgMod ∧ ∃ i, w.ct = .ct (.input i)) ?_ fun x hx =>
      (free_inputs msgMod build ms _).bind fun xs hxs => Ensures.pure ?_
    · unfold parmEncrypt
      exact (Ensures.trivial _).bind fun v _ => free_inputsVec msgMod seed 0 v
    · intro z hz
      rcases List.mem_cons.1 hz with rfl | hz
      · exact hx
      · exact hxs z hz

/-- a run that returns: the encrypted inputs, and no more bootstraps than counted -/
theorem split_run (job : Job) {msgMod : Nat} {build : Build} {seed : Nat → Nat} {ms : List (Int × Nat)}
    {ts : List (Ctxt Term)} {n : Nat} (hr : Returns (job.encrypted freeKey msgMod build seed ms) ts n) :
    ∃ xs s s', (∀ x ∈ xs, ∀ w ∈ x, w.msgMod = msgMod ∧ ∃ i, w.ct = .ct (.input i)) ∧
      job.run freeScheme xs s = .ok (ts, s') ∧ s'.pbs ≤ s.pbs + n := by
  obtain ⟨r, rep, -, e⟩ := hr (.init .seq)
  unfold Job.encrypted at e
  rcases hm : encryptInputs freeKey msgMod build seed ms (.init .seq) with f | ⟨xs, s1⟩
  · rw [bind_error hm] at e; cases e
  · rw [bind_ok hm] at e
    refine ⟨xs, s1, _, free_inputs msgMod build ms seed _ _ _ hm, e, ?_⟩
    rcases (rel_encryptInputs (Z := True) freeKey msgMod build ms seed).left with ⟨ys, k, hk⟩ | hf
    · obtain ⟨r1, rep1, -, e1⟩ := hk (.init .seq)
      rw [hm] at e1
      cases e1
      show (St.init Sched.seq).pbs + n ≤ _
      simp only
      omega
    · obtain ⟨f, hf⟩ := hf (.init .seq)
      rw [hm] at hf; cases hf

/-- as many words are bootstrapped as bootstraps are counted -/
theorem count (job : Job) {msgMod : Nat} {build : Build} {seed : Nat → Nat} {ms : List (Int × Nat)}
    {ts : List (Ctxt Term)} {n : Nat} (hr : Returns (job.encrypted freeKey msgMod build seed ms) ts n) :
    ∃ F : Finset Term, F.card ≤ n ∧ ∀ t, t ∈ F ↔ t ∈ bootedIn ts := by
  classical
  obtain ⟨xs, s, s', h1, h2, h3⟩ := split_run job hr
  let X : Finset Term := (xs.flatten.filterMap fun w => match w.ct with | .ct t => some t | .triv _ => none).toFinset
  have hX : ∀ u ∈ X, ∃ i, u = .input i := by
    intro u hu
    rw [List.mem_toFinset, List.mem_filterMap] at hu
    obtain ⟨w, hw, e⟩ := hu
    obtain ⟨x, hx, hw⟩ := List.mem_flatten.1 hw
    obtain ⟨-, i, hi⟩ := h1 x hx w hw
    rw [hi] at e
    exact ⟨i, (Option.some.inj e).symm⟩
  have hL : LIn X xs := by
    intro x hx w hw t e u hu
    obtain ⟨-, i, hi⟩ := h1 x hx w hw
    rw [e] at hi
    cases hi
    rw [Term.parts, Finset.mem_singleton] at hu
    subst hu
    exact List.mem_toFinset.2 (List.mem_filterMap.2 ⟨w, List.mem_flatten.2 ⟨x, hx, hw⟩, by rw [e]⟩)
  obtain ⟨Y, g1, g2, g3⟩ := job.tr hL s ts s' h2
  let arg : Term → Term := fun u => match u with | .boot _ t => t | u => u
  refine ⟨((Y \ X).image arg).filter (· ∈ bootedIn ts), ?_, ?_⟩
  · refine (Finset.card_filter_le _ _).trans (Finset.card_image_le.trans ?_)
    rw [Finset.card_sdiff_of_subset g1]
    omega
  · intro t
    rw [Finset.mem_filter, and_iff_right_iff_imp]
    rintro ⟨z, hz, w, hw, u, e, ht⟩
    obtain ⟨acc, hp⟩ := booted_part ht
    refine Finset.mem_image.2 ⟨.boot acc t, Finset.mem_sdiff.2 ⟨g3 z hz w hw u e hp, fun hx => ?_⟩, rfl⟩
    obtain ⟨i, hi⟩ := hX _ hx
    cases hi

/-- the words of results -/
theorem words (ts : List (Ctxt Term)) : ∃ G : Finset Term, G.card ≤ (ts.map List.length).sum ∧
    ∀ t, t ∈ G ↔ ∃ z ∈ ts, ∃ w ∈ z, w.ct = .ct t := by
  classical
  refine ⟨(ts.flatten.filterMap fun w => match w.ct with | .ct t => some t | .triv _ => none).toFinset, ?_, fun t => ?_⟩
  · refine (List.toFinset_card_le _).trans ((List.length_filterMap_le _ _).trans ?_)
    rw [List.length_flatten]
  · rw [List.mem_toFinset, List.mem_filterMap]
    constructor
    · rintro ⟨w, hw, e⟩
      obtain ⟨z, hz, hw⟩ := List.mem_flatten.1 hw
      refine ⟨z, hz, w, hw, ?_⟩
      cases hc : w.ct with
      | ct u => rw [hc] at e; rw [Option.some.inj e]
      | triv p => rw [hc] at e; cases e
    · rintro ⟨z, hz, w, hw, e⟩
      exact ⟨w, List.mem_flatten.2 ⟨z, hz, hw⟩, by rw [e]⟩

/-- **Failure probability** of a job whose bootstraps have a weight of at most `W` and whose results are single samples. -/
theorem failure (job : Job) {Ω : Type} [MeasurableSpace Ω] {μ : Measure Ω} [IsProbabilityMeasure μ] {S : Ω → Scheme}
    {ck : ∀ ω, ClientKey (S ω)} {err : ℕ → Ω → ℤ} {mask : Term → Ω → ℤ} {V Vd : NNReal} {R : Nat} {pc : Cloud} {B D : Nat}
    (sz : Sizes pc B D) {build : Build} {seed : Nat → Nat} {ms : List (Int × Nat)} {Q : List Int → Prop}
    (hP : ∀ (S : Scheme) (ck : ClientKey S) (B D : Nat), Setting S ck pc B D →
      Yields (job.encrypted ck pc.msgMod build seed ms) fun zs => ∃ vs, Q vs ∧ List.Forall₂ (fun z v => Valid ck B z v) zs vs)
    {ts : List (Ctxt Term)} {n : Nat} (hr : Returns (job.encrypted freeKey pc.msgMod build seed ms) ts n)
    (h : RandomErrors μ S ck pc.polySize err mask V Vd R (bootedIn ts)) (hR : R ≤ 2 ^ 58) {W : Nat}
    (hW : ∀ t ∈ bootedIn ts, t.mergedWeight ≤ W)
    (h1 : ∀ z ∈ ts, ∀ w ∈ z, ∀ t, w.ct = .ct t → t.mergedWeight ≤ 1) :
    μ.real {ω | ¬ Yields (job.encrypted (ck ω) pc.msgMod build seed ms) fun zs =>
        ∃ vs, Q vs ∧ List.Forall₂ (fun z v => Valid (ck ω) (2 ^ 58 - 1) z v) zs vs}
      ≤ n * tail R (W * V + Vd) + (ts.map List.length).sum * tail 0 V := by
  classical
  obtain ⟨F, hF, hF'⟩ := count job hr
  obtain ⟨G, hG, hG'⟩ := words ts
  have tp : ∀ (r : Nat) (v : ℝ), 0 ≤ tail r v := fun r v => by unfold tail; positivity
  have hsub : {ω | ¬ Yields (job.encrypted (ck ω) pc.msgMod build seed ms) fun zs =>
        ∃ vs, Q vs ∧ List.Forall₂ (fun z v => Valid (ck ω) (2 ^ 58 - 1) z v) zs vs} ⊆
      (⋃ t ∈ F, {ω | ¬ (mask t ω - t.noise fun k => err k ω).natAbs + R < 2 ^ 58}) ∪
      ⋃ t ∈ G, {ω | ¬ (t.noise fun k => err k ω).natAbs + 0 < 2 ^ 58} := by
    intro ω hω
    by_contra hno
    simp only [Set.mem_union, Set.mem_iUnion, Set.mem_ofPred_eq, not_or, not_exists, not_not] at hno
    obtain ⟨drift, he, hd⟩ := h.errors ω
    exact hω (correct job sz hP hr he (fun t ht => by
        have := hno.1 t ((hF' t).2 ht)
        have := hd t ht
        omega)
      fun z hz w hw t e => hno.2 t ((hG' t).2 ⟨z, hz, w, hw, e⟩))
  refine (measureReal_mono hsub).trans ((measureReal_union_le _ _).trans (add_le_add ?_ ?_))
  · refine (measureReal_biUnion_finset_le _ _).trans ?_
    calc ∑ t ∈ F, μ.real {ω | ¬ (mask t ω - t.noise fun k => err k ω).natAbs + R < 2 ^ 58}
        ≤ ∑ _t ∈ F, tail R (W * V + Vd) := Finset.sum_le_sum fun t ht => by
          have hb := (hF' t).1 ht
          have := two_sided (c := W * V + Vd) (subG_mono (sub_boot h hb) (by
            have := hW t hb
            gcongr)) hR
          push_cast at this
          exact this
      _ = F.card * tail R (W * V + Vd) := by rw [Finset.sum_const, nsmul_eq_mul]
      _ ≤ n * tail R (W * V + Vd) := by
          have := tp R (W * V + Vd)
          gcongr
  · refine (measureReal_biUnion_finset_le _ _).trans ?_
    calc ∑ t ∈ G, μ.real {ω | ¬ (t.noise fun k => err k ω).natAbs + 0 < 2 ^ 58}
        ≤ ∑ _t ∈ G, tail 0 V := Finset.sum_le_sum fun t ht => by
          obtain ⟨z, hz, w, hw, e⟩ := (hG' t).1 ht
          exact two_sided (sub_one h.sub (h1 z hz w hw t e)) (Nat.zero_le _)
      _ = G.card * tail 0 V := by rw [Finset.sum_const, nsmul_eq_mul]
      _ ≤ (ts.map List.length).sum * tail 0 V := by
          have := tp 0 V
          gcongr

/-! ### Weights of the words of a run -/

/-- encrypted inputs meet the invariant of the weights -/
theorem good_inputs {P : Term → Prop} {x : Ctxt Term} (h : ∀ w ∈ x, w.msgMod = 32 ∧ ∃ i, w.ct = .ct (.input i)) : Wt.Good P x := by
  rw [Wt.good_iff]
  intro w hw
  obtain ⟨h1, k, e⟩ := h w hw
  refine ⟨?_, ?_, h1, fun p hp => by rw [e] at hp; cases hp⟩
  · rw [Wt.wm_ct e]
    exact ⟨.input k, by simp [Term.mult], fun b hb => by simp [Term.mult, hb]⟩
  · intro t e' u hu
    rw [e] at e'
    injection e' with e'
    subst e'
    simp [Term.booted] at hu

/-- the invariant of the weights, as a judgement on programs -/
def judgeEnsures : Judge where
  J := Ensures
  pure := Ensures.pure
  bind := Ensures.bind

theorem good_network {S : Scheme} {ck : ClientKey S} {pc : Cloud} {B D : Nat} {P : Term → Prop} (st : Setting S ck pc B D)
    (hP : Wt.Covers pc P) (nn : NeuralNetwork) {xs : List (Ctxt Term)} (hx : ∀ x ∈ xs, Wt.Good P x) :
    Ensures (nn.eval (arithCt freeScheme pc) xs) fun zs => ∀ z ∈ zs, Wt.Good P z := by
  have I : Implements judgeEnsures (arithCt freeScheme pc) (fun x _ => Wt.Good P x) (fun _ => True) (fun _ => True) := {
    zero := Wt.good_nil
    add := fun hx hy => Wt.good_add st hP hx hy
    addConst := fun {x v k} hx _ => Wt.good_addConst st hP hx k
    scalarMul := fun {x v k} _ hx => by
      rw [arithCt_scalarMul]
      exact Wt.good_scalarMul st hP k hx
    max := fun hx hy => (Wt.good_maxImpl st hP hx hy).call
    relu := fun hx => (Wt.good_maxImpl st hP Wt.good_nil hx).call }
  have := nnEval_spec I nn (fun _ _ _ _ => ⟨fun _ _ => trivial, trivial⟩) (a := xs) (vs := xs.map fun _ => 0)
    (List.forall₂_iff_get.2 ⟨by simp, fun i h1 _ => hx _ (List.get_mem _ _)⟩)
  refine Ensures.mono this fun zs hz z h => ?_
  obtain ⟨i, hi, rfl⟩ := List.getElem_of_mem h
  exact (List.forall₂_iff_get.1 hz).2 i hi (by rw [← hz.length_eq]; exact hi)

/-- the linear weight bounds the merged quadratic weight -/
theorem merged_of_linear {t : Term} {B : Nat} (h : t.linWeight ≤ B) : t.mergedWeight ≤ B ^ 2 := by
  refine Mg.merged_L1 fun F => le_trans ?_ h
  classical
  unfold Term.linWeight
  rw [← Finset.sum_filter_add_sum_filter_not F (fun a => a ∈ t.samples)]
  rw [Finset.sum_eq_zero (s := F.filter fun a => a ∉ t.samples) fun a ha => by
    by_contra hc
    exact (Finset.mem_filter.1 ha).2 (Mg.isSample_of_mult fun h0 => hc (by rw [h0]; rfl)), add_zero]
  exact Finset.sum_le_sum_of_subset fun a ha => (Finset.mem_filter.1 ha).2

/-- jobs that keep the invariant of the weights -/
def Tame (job : Job) (pc : Cloud) : Prop :=
  ∀ {xs : List (Ctxt Term)}, (∀ x ∈ xs, Wt.Good (fun t => t.linWeight ≤ tolWeight pc.params.quadWeight) x) →
    Ensures (job.run freeScheme xs) fun zs => ∀ z ∈ zs, Wt.Good (fun t => t.linWeight ≤ tolWeight pc.params.quadWeight) z

theorem tame_weights {job : Job} {pc : Cloud} (hj : Tame job pc) (hp : pc.msgMod = 32) {build : Build} {seed : Nat → Nat}
    {ms : List (Int × Nat)} {ts : List (Ctxt Term)} {n : Nat}
    (hr : Returns (job.encrypted freeKey pc.msgMod build seed ms) ts n) :
    (∀ t ∈ bootedIn ts, t.mergedWeight ≤ tolWeight pc.params.quadWeight ^ 2) ∧
    ∀ z ∈ ts, ∀ w ∈ z, ∀ t, w.ct = .ct t → t.mergedWeight ≤ 1 := by
  obtain ⟨xs, s, s', h1, h2, -⟩ := split_run job hr
  have hg := hj (fun x hx => good_inputs fun w hw => by rw [← hp]; exact h1 x hx w hw) s ts s' h2
  constructor
  · rintro u ⟨z, hz, w, hw, t, e, hu⟩
    exact merged_of_linear ((hg z hz).past.all w hw t e u hu)
  · intro z hz w hw t e
    have := ((Wt.good_iff.1 (hg z hz)) w hw).1
    rw [Wt.wm_ct e] at this
    exact Mg.merged_L1 this.l1

end Err
end Parm
