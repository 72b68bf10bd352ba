import Verif.Proof.ErrorsProb
import Verif.Props.Failure
import Verif.Props.MergedOps
import Mathlib.Probability.Independence.InfinitePi

/-!
# Property C81: failure probabilities from the variances of errors

Property C63 bounds the probability that a program fails by the number of bootstraps times the probability that one fails.
Here the latter is derived from the variance of the errors of samples and from the weights the code keeps (C80): a bootstrap of
a combination of weight `W` sees an error of variance `W·V`, the rounding inside the bootstrap adds `Vd`.
-/

namespace Parm
open MeasureTheory ProbabilityTheory

section
variable {Ω : Type} [MeasurableSpace Ω] {μ : Measure Ω} [IsProbabilityMeasure μ] {S : Ω → Scheme} {ck : ∀ ω, ClientKey (S ω)}
  {err : ℕ → Ω → ℤ} {mask : Term → Ω → ℤ} {V Vd : NNReal} {R : Nat} {pc : Cloud}

/-- there is a scheme without noise -/
theorem exists_setting (sz : Sizes pc 0 (2 ^ 58 - 1)) : ∃ (S : Scheme) (ck : ClientKey S), Setting S ck pc 0 (2 ^ 58 - 1) := by
  have hl : Linear Demo.scheme Demo.ck := ⟨Demo.st12.sound.phase_add, Demo.st12.sound.phase_neg, Demo.st12.sound.phase_mulC,
    Demo.st12.sound.phase_addPt⟩
  obtain ⟨f, hf⟩ := exists_exact hl sz.polySize
  exact ⟨_, _, patched_setting hl sz hf⟩

/-- results of noise below half a step decrypt -/
theorem decrypt_forall {S : Scheme} {ck : ClientKey S} (build : Build) {zs : List (Ctxt S.C)} {vs : List Int}
    (h : List.Forall₂ (fun z v => Valid ck (2 ^ 58 - 1) z v) zs vs) :
    List.Forall₂ (fun v z => z.length ≤ 63 → Returns (parmDecrypt ck build z) v 0) vs zs :=
  h.flip.imp fun v z ⟨d, hd, e⟩ h63 => e ▸ parmDecrypt_holds (k := 1) (by norm_num) build hd h63

/-- programs yield valid results -/
theorem prog_yields (sh : Shipped pc) (build : Build) (seed : Nat → Nat) (ms : List (Int × Nat))
    (hm : ∀ mw ∈ ms, -2 ^ 63 < mw.1 ∧ mw.1 < 2 ^ 63 ∧ mw.2 ≤ 63 ∧ mw.1.natAbs < 2 ^ mw.2)
    (p : List Instr) (hwf : wfProg p ms.length) {ls : List Nat} (hlen : lenProg p (ms.map (·.2)) = some ls)
    (S : Scheme) (ck : ClientKey S) (B D : Nat) (st : Setting S ck pc B D) :
    Yields ((progJob pc p).encrypted ck pc.msgMod build seed ms) fun zs =>
      ∃ vs, vs = valProg p (ms.map (·.1)) ∧ List.Forall₂ (fun z v => Valid ck B z v) zs vs := by
  refine Yields.bind (encryptInputs_spec st build ms seed hm) fun xs hx => ?_
  have e : xs.length = ms.length := by rw [← hx.1]; simp
  refine (runProg_valid st p (ScalarsOk.use (Or.inr sh)) hx (by rwa [e]) hlen).mono ?_
  rintro zs ⟨h1, h2, h3⟩
  refine ⟨_, rfl, List.forall₂_iff_get.2 ⟨h1.symm, fun i hi hv => ?_⟩⟩
  have := (h3 i hi).1
  rwa [List.getD_eq_getElem _ _ hv] at this

/-- networks yield valid results -/
theorem net_yields (sh : Shipped pc) (build : Build) (seed : Nat → Nat) (ms : List (Int × Nat))
    (hm : ∀ mw ∈ ms, -2 ^ 63 < mw.1 ∧ mw.1 < 2 ^ 63 ∧ mw.2 ≤ 63 ∧ mw.1.natAbs < 2 ^ mw.2)
    (nn : NeuralNetwork) (hn : NetRange nn) (S : Scheme) (ck : ClientKey S) (B D : Nat) (st : Setting S ck pc B D) :
    Yields ((netJob pc nn).encrypted ck pc.msgMod build seed ms) fun zs =>
      ∃ vs, vs = netZ nn.layers (ms.map (·.1)) ∧ List.Forall₂ (fun z v => Valid ck B z v) zs vs := by
  refine Yields.bind (encryptInputs_spec st build ms seed hm) fun xs hx => ?_
  have hv : List.Forall₂ (fun x v => Valid ck B x v) xs (ms.map (·.1)) := by
    refine List.forall₂_iff_get.2 ⟨hx.1.symm, fun i h1 h2 => ?_⟩
    have := (hx.2.2 i h1).1
    rwa [List.getD_eq_getElem _ _ h2] at this
  exact (C25_encrypted st sh hn hv).mono fun zs hz => ⟨_, rfl, hz⟩

theorem sum_lengths {zs : List (Ctxt Term)} {ns : List Nat} (h : List.Forall₂ (fun z n => z.length ≤ n) zs ns) :
    (zs.map List.length).sum ≤ ns.sum := by
  induction h with
  | nil => exact le_rfl
  | cons h _ ih =>
    simp only [List.map_cons, List.sum_cons]
    omega

/-- encryption does not bootstrap -/
theorem encryptInputs_free (msgMod : Nat) (build : Build) : ∀ (ms : List (Int × Nat)) (seed : Nat → Nat),
    (∀ mw ∈ ms, -2 ^ 63 < mw.1 ∧ mw.1 < 2 ^ 63 ∧ mw.2 ≤ 63 ∧ mw.1.natAbs < 2 ^ mw.2) →
    Within (encryptInputs freeKey msgMod build seed ms) (fun _ => True) 0
  | [], _, _ => Within.pure trivial
  | (m, w) :: ms, seed, h => by
    have vec : ∀ (i : Nat) (v : List Int), Within (parmEncryptFromVec freeKey msgMod seed i v) (fun _ => True) 0 := by
      intro i v
      induction v generalizing i with
      | nil => exact Within.pure trivial
      | cons a v ih =>
        unfold parmEncryptFromVec
        exact Within.ite (fun _ => Within.err _) fun _ => (ih (i + 1)).bind0 fun _ _ => Within.pure trivial
    obtain ⟨h1, h2, h3, -⟩ := h (m, w) (by simp)
    unfold encryptInputs parmEncrypt
    exact ((Within.of_returns (P := fun _ => True) (convertToVec_spec build h1 h2 (le_trans h3 (by norm_num))) trivial).bind0 fun v _ => vec 0 v).bind0 fun x _ =>
      (encryptInputs_free msgMod build ms _ fun mw hmw => h mw (by simp [hmw])).bind0 fun _ _ => Within.pure trivial

theorem tail_nonneg (r : Nat) (v : ℝ) : 0 ≤ tail r v := by unfold tail; positivity

/-- a job that yields valid results returns on terms -/
theorem Job.free_returns (job : Job) (sz : Sizes pc 0 (2 ^ 58 - 1)) {build : Build} {seed : Nat → Nat} {ms : List (Int × Nat)}
    {ws : List Int}
    (hP : ∀ (S : Scheme) (ck : ClientKey S) (B D : Nat), Setting S ck pc B D →
      Yields (job.encrypted ck pc.msgMod build seed ms) fun zs => ∃ vs, vs = ws ∧ List.Forall₂ (fun z v => Valid ck B z v) zs vs) :
    ∃ ts n, Returns (job.encrypted freeKey pc.msgMod build seed ms) ts n := by
  obtain ⟨S', ck', st⟩ := exists_setting sz
  obtain ⟨zs, k, h1, -⟩ := hP _ _ _ _ st
  rcases job.encrypted_rel ck' pc.msgMod build seed ms with ⟨a, a', i, r1, -⟩ | ⟨-, r1⟩
  · exact ⟨_, _, r1⟩
  · exact absurd r1 h1.not_allFail

/-- a job that returns on terms -/
theorem Job.failure_run (job : Job) (hj : Err.Tame job pc) (sz : Sizes pc 0 (2 ^ 58 - 1)) {build : Build} {seed : Nat → Nat}
    {ms : List (Int × Nat)} {ws : List Int}
    (hP : ∀ (S : Scheme) (ck : ClientKey S) (B D : Nat), Setting S ck pc B D →
      Yields (job.encrypted ck pc.msgMod build seed ms) fun zs => ∃ vs, vs = ws ∧ List.Forall₂ (fun z v => Valid ck B z v) zs vs)
    {ts : List (Ctxt Term)} {n : Nat} (hr : Returns (job.encrypted freeKey pc.msgMod build seed ms) ts n)
    (h : RandomErrors μ S ck pc.polySize err mask V Vd R (bootedIn ts)) (hR : R ≤ 2 ^ 58) :
    μ.real {ω | ¬ Yields (job.encrypted (ck ω) pc.msgMod build seed ms)
        (List.Forall₂ (fun v z => z.length ≤ 63 → Returns (parmDecrypt (ck ω) build z) v 0) ws)}
      ≤ n * tail R ((tolWeight pc.params.quadWeight ^ 2 : Nat) * V + Vd) + (ts.map List.length).sum * tail 0 V := by
  obtain ⟨h1, h2⟩ := Err.tame_weights hj sz.msgMod hr
  refine (measureReal_mono fun ω hω => ?_).trans (Err.failure job sz hP hr h hR h1 h2)
  intro hy
  refine hω (hy.mono ?_)
  rintro zs ⟨vs, rfl, hv⟩
  exact decrypt_forall build hv

/-- a job, from the numbers of words alone -/
theorem Job.failure_worst (job : Job) (hj : Err.Tame job pc) (sz : Sizes pc 0 (2 ^ 58 - 1)) {build : Build} {seed : Nat → Nat}
    {ms : List (Int × Nat)} {ws : List Int}
    (hm : ∀ mw ∈ ms, -2 ^ 63 < mw.1 ∧ mw.1 < 2 ^ 63 ∧ mw.2 ≤ 63 ∧ mw.1.natAbs < 2 ^ mw.2)
    (hP : ∀ (S : Scheme) (ck : ClientKey S) (B D : Nat), Setting S ck pc B D →
      Yields (job.encrypted ck pc.msgMod build seed ms) fun zs => ∃ vs, vs = ws ∧ List.Forall₂ (fun z v => Valid ck B z v) zs vs)
    {ls : List Nat} {c : Nat}
    (hc : ∀ {xs zs s s'}, List.Forall₂ (fun (x : Ctxt Term) n => x.length ≤ n) xs (ms.map (·.2)) →
      job.run freeScheme xs s = .ok (zs, s') → List.Forall₂ (fun z m => z.length ≤ m) zs ls ∧ s'.pbs ≤ s.pbs + c)
    (h : ∀ ts n, Returns (job.encrypted freeKey pc.msgMod build seed ms) ts n →
      RandomErrors μ S ck pc.polySize err mask V Vd R (bootedIn ts)) (hR : R ≤ 2 ^ 58) :
    μ.real {ω | ¬ Yields (job.encrypted (ck ω) pc.msgMod build seed ms)
        (List.Forall₂ (fun v z => z.length ≤ 63 → Returns (parmDecrypt (ck ω) build z) v 0) ws)}
      ≤ c * tail R ((tolWeight pc.params.quadWeight ^ 2 : Nat) * V + Vd) + ls.sum * tail 0 V := by
  obtain ⟨ts, n, hr⟩ := job.free_returns sz hP
  obtain ⟨hl, hn⟩ : List.Forall₂ (fun z m => z.length ≤ m) ts ls ∧ n ≤ c := by
    obtain ⟨r, rep, -, e⟩ := hr (.init .seq)
    unfold Job.encrypted at e
    rcases hx : encryptInputs freeKey pc.msgMod build seed ms (.init .seq) with f | ⟨xs, s1⟩
    · rw [bind_error hx] at e; cases e
    · rw [bind_ok hx] at e
      obtain ⟨h1, h2⟩ := hc (free_encryptInputs pc.msgMod build ms seed _ _ _ hx).1 e
      have h3 := (encryptInputs_free pc.msgMod build ms seed hm _ _ _ hx).2
      simp only at h2
      exact ⟨h1, by omega⟩
  refine (job.failure_run hj sz hP hr (h ts n hr) hR).trans (add_le_add ?_ ?_)
  · have := tail_nonneg R ((tolWeight pc.params.quadWeight ^ 2 : Nat) * V + Vd)
    gcongr
  · have := tail_nonneg 0 V
    have := sum_lengths hl
    gcongr

theorem tame_prog (sz : Sizes pc 0 (2 ^ 58 - 1)) (p : List Instr) : Err.Tame (progJob pc p) pc := by
  obtain ⟨S, ck, st⟩ := exists_setting sz
  exact fun hx => Wt.good_prog st (fun t ht => Term.linWeight_le ht) p hx

theorem tame_net (sz : Sizes pc 0 (2 ^ 58 - 1)) (nn : NeuralNetwork) : Err.Tame (netJob pc nn) pc := by
  obtain ⟨S, ck, st⟩ := exists_setting sz
  exact fun hx => Err.good_network st (fun t ht => Term.linWeight_le ht) nn hx

/-- **C81**, programs.  Run the program symbolically: it takes `n` bootstraps and returns `ts`.  Encrypt the inputs, run the
program and decrypt: the probability that the run does not return, or that one of the results of at most 63 words does not
decrypt to the exact value, is at most `n` times the tail of an error of variance `64·V + Vd` (`81·V + Vd`, `225·V + Vd` for
higher quadratic weights), plus the number of words of all results times the tail of the error of one sample. -/
theorem C81_program (sz : Sizes pc 0 (2 ^ 58 - 1)) (sh : Shipped pc) (build : Build) (seed : Nat → Nat) (ms : List (Int × Nat))
    (hm : ∀ mw ∈ ms, -2 ^ 63 < mw.1 ∧ mw.1 < 2 ^ 63 ∧ mw.2 ≤ 63 ∧ mw.1.natAbs < 2 ^ mw.2)
    (p : List Instr) (hwf : wfProg p ms.length) {ls : List Nat} (hlen : lenProg p (ms.map (·.2)) = some ls)
    {ts : List (Ctxt Term)} {n : Nat}
    (hr : Returns (do
      let xs ← encryptInputs freeKey pc.msgMod build seed ms
      runProg (arithCt freeScheme pc) p xs) ts n)
    (h : RandomErrors μ S ck pc.polySize err mask V Vd R (bootedIn ts)) (hR : R ≤ 2 ^ 58) :
    μ.real {ω | ¬ Yields (do
          let xs ← encryptInputs (ck ω) pc.msgMod build seed ms
          runProg (arithCt (S ω) pc) p xs)
        (List.Forall₂ (fun v z => z.length ≤ 63 → Returns (parmDecrypt (ck ω) build z) v 0) (valProg p (ms.map (·.1))))}
      ≤ n * tail R ((tolWeight pc.params.quadWeight ^ 2 : Nat) * V + Vd) + (ts.map List.length).sum * tail 0 V :=
  (progJob pc p).failure_run (tame_prog sz p) sz (prog_yields sh build seed ms hm p hwf hlen) hr h hR

/-- **C81**, programs, from the numbers of words alone: the worst-case number of bootstraps and lengths of results (C62). -/
theorem C81_program_worst (sz : Sizes pc 0 (2 ^ 58 - 1)) (sh : Shipped pc) (build : Build) (seed : Nat → Nat)
    (ms : List (Int × Nat)) (hm : ∀ mw ∈ ms, -2 ^ 63 < mw.1 ∧ mw.1 < 2 ^ 63 ∧ mw.2 ≤ 63 ∧ mw.1.natAbs < 2 ^ mw.2)
    (p : List Instr) (hwf : wfProg p ms.length) {ls ls' : List Nat} {c : Nat} (hlen : lenProg p (ms.map (·.2)) = some ls)
    (hc : worst (runProg (arithCost pc) p (ms.map (·.2))) = some (ls', c))
    (h : ∀ ts n, Returns (do
        let xs ← encryptInputs freeKey pc.msgMod build seed ms
        runProg (arithCt freeScheme pc) p xs) ts n →
      RandomErrors μ S ck pc.polySize err mask V Vd R (bootedIn ts)) (hR : R ≤ 2 ^ 58) :
    μ.real {ω | ¬ Yields (do
          let xs ← encryptInputs (ck ω) pc.msgMod build seed ms
          runProg (arithCt (S ω) pc) p xs)
        (List.Forall₂ (fun v z => z.length ≤ 63 → Returns (parmDecrypt (ck ω) build z) v 0) (valProg p (ms.map (·.1))))}
      ≤ c * tail R ((tolWeight pc.params.quadWeight ^ 2 : Nat) * V + Vd) + ls'.sum * tail 0 V :=
  (progJob pc p).failure_worst (tame_prog sz p) sz hm (prog_yields sh build seed ms hm p hwf hlen)
    (fun hx e => C62_program sh.2 p hc hx e) h hR

/-- fresh encryptions are numbered by their seeds -/
theorem seeds_vec (msgMod : Nat) (seed : Nat → Nat) : ∀ (v : List Int) (i : Nat),
    Ensures (parmEncryptFromVec freeKey msgMod seed i v) fun x => x.length = v.length ∧
      ∀ j (hj : j < x.length), ∃ mu, x[j].ct = .ct (.input (Nat.pair (seed (i + j)) mu))
  | [], _ => Ensures.pure ⟨rfl, fun j hj => absurd hj (Nat.not_lt_zero _)⟩
  | a :: v, i => by
    unfold parmEncryptFromVec
    refine Ensures.ite (fun _ => Ensures.err _) fun _ => (seeds_vec msgMod seed v (i + 1)).bind ?_
    rintro c ⟨h1, h2⟩
    refine Ensures.pure ⟨by simp [h1], fun j hj => ?_⟩
    cases j with
    | zero => exact ⟨_, rfl⟩
    | succ j =>
      obtain ⟨mu, h⟩ := h2 j (by simpa using hj)
      exact ⟨mu, by rw [List.getElem_cons_succ, h, show i + 1 + j = i + (j + 1) by omega]⟩

theorem seeds_inputs (msgMod : Nat) (build : Build) : ∀ (ms : List (Int × Nat)) (seed : Nat → Nat),
    (∀ mw ∈ ms, -2 ^ 63 < mw.1 ∧ mw.1 < 2 ^ 63 ∧ mw.2 ≤ 63 ∧ mw.1.natAbs < 2 ^ mw.2) →
    Ensures (encryptInputs freeKey msgMod build seed ms) fun xs => xs.length = ms.length ∧
      ∀ j (hj : j < xs.flatten.length), ∃ mu, xs.flatten[j].ct = .ct (.input (Nat.pair (seed j) mu))
  | [], _, _ => Ensures.pure ⟨rfl, fun j hj => by simp at hj⟩
  | (m, w) :: ms, seed, h => by
    obtain ⟨h1, h2, h3, -⟩ := h (m, w) (by simp)
    unfold encryptInputs
    refine Ensures.bind (P := fun x => x.length = w ∧
      ∀ j (hj : j < x.length), ∃ mu, x[j].ct = .ct (.input (Nat.pair (seed j) mu))) ?_ ?_
    · unfold parmEncrypt
      refine Ensures.bind (P := fun v => v.length = w) ?_ fun v hv => (seeds_vec msgMod seed v 0).mono ?_
      · intro s v s' e
        obtain ⟨_, _, _, e'⟩ := convertToVec_spec build h1 h2 (le_trans h3 (by norm_num)) s
        rw [e'] at e
        cases e
        simp
      · rintro x ⟨g1, g2⟩
        exact ⟨by rw [g1, hv], fun j hj => by simpa using g2 j hj⟩
    · rintro x ⟨g1, g2⟩
      refine (seeds_inputs msgMod build ms _ fun mw hmw => h mw (by simp [hmw])).bind ?_
      rintro xs ⟨g3, g4⟩
      refine Ensures.pure ⟨by simp [g3], fun j hj => ?_⟩
      simp only [List.flatten_cons] at hj ⊢
      by_cases hjx : j < x.length
      · rw [List.getElem_append_left hjx]
        exact g2 j hjx
      · rw [List.getElem_append_right (by omega)]
        obtain ⟨mu, e⟩ := g4 (j - x.length) (by rw [List.length_append] at hj; omega)
        exact ⟨mu, by rw [e, show j - x.length + w = j by omega]⟩

/-- **C81**, single operations on fresh encryptions with different seeds: the weight allowed by the parameters suffices, as no
sample occurs twice. -/
theorem C81_fresh (sz : Sizes pc 0 (2 ^ 58 - 1)) (sh : Shipped pc) (hq : 22 ≤ pc.params.quadWeight) (build : Build)
    {seed : Nat → Nat} (hs : Function.Injective seed) (m₁ m₂ : Int × Nat)
    (hm : ∀ mw ∈ [m₁, m₂], -2 ^ 63 < mw.1 ∧ mw.1 < 2 ^ 63 ∧ mw.2 ≤ 63 ∧ mw.1.natAbs < 2 ^ mw.2) (k : Int) (pos : Nat)
    {ins : Instr} (hi : ins ∈ [.add 0 1, .sub 0 1, .addConst 0 k, .sgn 0, .max 0 1, .relu 0, .roundAt 0 pos])
    (hwf : wfProg [ins] 2) {ls : List Nat} (hlen : lenProg [ins] [m₁.2, m₂.2] = some ls)
    {ts : List (Ctxt Term)} {n : Nat}
    (hr : Returns (do
      let xs ← encryptInputs freeKey pc.msgMod build seed [m₁, m₂]
      runProg (arithCt freeScheme pc) [ins] xs) ts n)
    (h : RandomErrors μ S ck pc.polySize err mask V Vd R (bootedIn ts)) (hR : R ≤ 2 ^ 58) :
    μ.real {ω | ¬ Yields (do
          let xs ← encryptInputs (ck ω) pc.msgMod build seed [m₁, m₂]
          runProg (arithCt (S ω) pc) [ins] xs)
        (List.Forall₂ (fun v z => z.length ≤ 63 → Returns (parmDecrypt (ck ω) build z) v 0) (valProg [ins] [m₁.1, m₂.1]))}
      ≤ n * tail R (pc.params.quadWeight * V + Vd) + (ts.map List.length).sum * tail 0 V := by
  have hW : ∀ t ∈ bootedIn ts, t.mergedWeight ≤ pc.params.quadWeight := by
    obtain ⟨r, rep, -, e⟩ := hr (.init .seq)
    rcases hx : encryptInputs freeKey pc.msgMod build seed [m₁, m₂] (.init .seq) with f | ⟨xs, s1⟩
    · rw [bind_error hx] at e; cases e
    · rw [bind_ok hx] at e
      obtain ⟨h1, h2⟩ := seeds_inputs pc.msgMod build _ seed hm _ _ _ hx
      obtain ⟨x, y, rfl⟩ : ∃ x y, xs = [x, y] := by
        match xs, h1 with
        | [x, y], _ => exact ⟨x, y, rfl⟩
      simp only [List.flatten_cons, List.flatten_nil, List.append_nil] at h2
      have hind : Independent (x ++ y) := by
        refine ⟨fun w hw _ => ?_, fun i j hi hj t e1 e2 => ?_⟩
        · obtain ⟨i, hi, rfl⟩ := List.getElem_of_mem hw
          obtain ⟨mu, e⟩ := h2 i hi
          exact ⟨_, e⟩
        · obtain ⟨a, ea⟩ := h2 i hi
          obtain ⟨b, eb⟩ := h2 j hj
          rw [ea] at e1
          rw [eb, ← e1] at e2
          exact (hs (Nat.pair_eq_pair.1 (Term.input.inj (CtWord.ct.inj e2))).1).symm
      have no : ∀ z ∈ [x, y], ∀ w ∈ z, ∀ t, w.ct = .ct t → t.booted = [] := by
        intro z hz w hw t e
        have : w ∈ x ++ y := by
          rcases List.mem_cons.1 hz with rfl | hz
          · exact List.mem_append_left _ hw
          · rw [List.mem_singleton.1 hz] at hw
            exact List.mem_append_right _ hw
        obtain ⟨i, e'⟩ := hind.1 w this (Wt.not_triv_of_ct e)
        rw [e] at e'
        rw [CtWord.ct.inj e']
        rfl
      unfold runProg at e
      rcases hz : ins.run (arithCt freeScheme pc) [x, y] s1 with f | ⟨z, s2⟩
      · rw [bind_error hz] at e; cases e
      · rw [bind_ok hz] at e
        unfold runProg at e
        cases e
        obtain ⟨b1, b2, -, -, b5, b6, b7, b8, b9⟩ := C80_independent hind hq k pos
        have hb : AllBooted (fun t => t.mergedWeight ≤ pc.params.quadWeight) z := by
          simp only [List.mem_cons, List.not_mem_nil, or_false] at hi
          rcases hi with rfl | rfl | rfl | rfl | rfl | rfl | rfl
          · exact b1 _ _ _ hz
          · exact b2 _ _ _ hz
          · exact b5 _ _ _ hz
          · exact b6 _ _ _ hz
          · exact b7 _ _ _ hz
          · exact b8 _ _ _ hz
          · exact b9 _ _ _ hz
        rintro u ⟨z', hz', w, hw, t, e, hu⟩
        rcases List.mem_append.1 hz' with hz' | hz'
        · rw [no z' hz' w hw t e] at hu
          cases hu
        · rw [List.mem_singleton.1 hz'] at hw
          exact hb w hw t e u hu
  obtain ⟨-, h1⟩ := Err.tame_weights (tame_prog sz [ins]) sz.msgMod (job := progJob pc [ins]) hr
  refine (measureReal_mono fun ω hω => ?_).trans
    (Err.failure (progJob pc [ins]) sz (prog_yields sh build seed [m₁, m₂] hm [ins] hwf hlen) hr h hR hW h1)
  intro hy
  refine hω (hy.mono ?_)
  rintro zs ⟨vs, rfl, hv⟩
  exact decrypt_forall build hv

/-- **C81**, networks. -/
theorem C81_network (sz : Sizes pc 0 (2 ^ 58 - 1)) (sh : Shipped pc) (build : Build) (seed : Nat → Nat)
    (ms : List (Int × Nat)) (hm : ∀ mw ∈ ms, -2 ^ 63 < mw.1 ∧ mw.1 < 2 ^ 63 ∧ mw.2 ≤ 63 ∧ mw.1.natAbs < 2 ^ mw.2)
    (nn : NeuralNetwork) (hn : NetRange nn) {ls : List Nat} {c : Nat}
    (hc : worst (nn.eval (arithCost pc) (ms.map (·.2))) = some (ls, c))
    (h : ∀ ts n, Returns (do
        let xs ← encryptInputs freeKey pc.msgMod build seed ms
        nn.eval (arithCt freeScheme pc) xs) ts n →
      RandomErrors μ S ck pc.polySize err mask V Vd R (bootedIn ts)) (hR : R ≤ 2 ^ 58) :
    μ.real {ω | ¬ Yields (do
          let xs ← encryptInputs (ck ω) pc.msgMod build seed ms
          nn.eval (arithCt (S ω) pc) xs)
        (List.Forall₂ (fun v z => z.length ≤ 63 → Returns (parmDecrypt (ck ω) build z) v 0) (netZ nn.layers (ms.map (·.1))))}
      ≤ c * tail R ((tolWeight pc.params.quadWeight ^ 2 : Nat) * V + Vd) + ls.sum * tail 0 V :=
  (netJob pc nn).failure_worst (tame_net sz nn) sz hm (net_yields sh build seed ms hm nn hn)
    (fun hx e => C62_network sh.2 nn hc hx e) h hR

end

/-! ### A case

Terms as ciphertexts; every sample has an error of `2^50` or `-2^50`, decided by its own fair coin; a bootstrap rounds the
phase down. -/

namespace Demo

/-- the phase of a term, with given errors of samples -/
noncomputable def noisyPhase (N : Nat) (e : ℕ → ℤ) : Term → BitVec 64
  | .input i => BitVec.ofInt 64 ((i.unpair.2 : ℤ) * 2 ^ 59 + e (2 * i))
  | .add s t => noisyPhase N e s + noisyPhase N e t
  | .neg t => - noisyPhase N e t
  | .mulC t k => noisyPhase N e t * k
  | .addPt t p => noisyPhase N e t + p
  | .boot acc t => negacyclic acc ((noisyPhase N e t).toNat / (2 ^ 64 / (2 * N))) +
      BitVec.ofInt 64 (e (2 * lookupNo (acc, t.comb) + 1))

noncomputable def noisyKey (N : Nat) (e : ℕ → ℤ) : ClientKey freeScheme := ⟨noisyPhase N e, freeKey.encrypt⟩

theorem noisy_errors {logN : Nat} (hN : logN ≤ 62) (e : ℕ → ℤ) {U : Set Term}
    (hU : ∀ t ∈ U, t.eval freeScheme (encryptions (noisyKey (2 ^ logN) e)) = t) :
    Errors freeScheme (noisyKey (2 ^ logN) e) (2 ^ logN) e
      (fun t => ((noisyPhase (2 ^ logN) e t).toNat % (2 ^ 64 / (2 * 2 ^ logN)) : Nat)) U where
  linear := ⟨fun _ _ => rfl, fun _ => rfl, fun _ _ => rfl, fun _ _ => rfl⟩
  encrypt seed mu _ := by
    show BitVec.ofInt 64 (((Nat.pair seed mu.toNat).unpair.2 : ℤ) * 2 ^ 59 + e (2 * Nat.pair seed mu.toNat)) = _
    rw [Nat.unpair_pair]
  boot acc t ht _ := by
    rw [hU t ht]
    have hs : 2 ^ 64 / (2 * 2 ^ logN) = 2 ^ (63 - logN) := by
      rw [← pow_succ', Nat.pow_div (by omega) (by norm_num)]
      congr 1
      omega
    have hm : 2 * 2 ^ logN * 2 ^ (63 - logN) = 2 ^ 64 := by
      rw [← pow_succ', ← pow_add]
      congr 1
      omega
    refine ⟨(noisyPhase (2 ^ logN) e t).toNat / (2 ^ 64 / (2 * 2 ^ logN)), ?_, ?_, rfl⟩
    · rw [hs, Nat.div_lt_iff_lt_mul (by positivity), hm]
      exact BitVec.isLt _
    · show noisyPhase (2 ^ logN) e t = _
      have : (((noisyPhase (2 ^ logN) e t).toNat / (2 ^ 64 / (2 * 2 ^ logN)) : Nat) : ℤ) * (2 ^ 64 / (2 * 2 ^ logN) : Nat) +
          ((noisyPhase (2 ^ logN) e t).toNat % (2 ^ 64 / (2 * 2 ^ logN)) : Nat) = ((noisyPhase (2 ^ logN) e t).toNat : ℤ) := by
        rw [← Nat.cast_mul, ← Nat.cast_add, Nat.div_add_mod']
      rw [this, BitVec.ofInt_natCast, BitVec.ofNat_toNat, BitVec.setWidth_eq]

/-- a fair coin -/
noncomputable def fair : Measure Bool := coin (1 / 2)

instance : IsProbabilityMeasure fair := ⟨by
  simp [fair, coin, ENNReal.inv_two_add_inv_two]⟩

/-- independent fair coins -/
noncomputable def coins : Measure (ℕ → Bool) := Measure.infinitePi fun _ => fair

instance : IsProbabilityMeasure coins := by unfold coins; infer_instance

def flip (b : Bool) : ℤ := if b then 2 ^ 50 else -2 ^ 50

/-- the error of sample `k`; coin 0 is not used -/
def flips (k : ℕ) (ω : ℕ → Bool) : ℤ := flip (ω (k + 1))

theorem sub_flip : HasSubgaussianMGF (fun b => (flip b : ℝ)) (2 ^ 100) fair := by
  have := hasSubgaussianMGF_of_mem_Icc_of_integral_eq_zero (μ := fair) (X := fun b => (flip b : ℝ)) (a := -2 ^ 50) (b := 2 ^ 50)
    (measurable_of_finite _).aemeasurable (Filter.Eventually.of_forall fun b => by cases b <;> simp [flip] <;> norm_num) (by
      unfold fair coin
      have f1 : IsFiniteMeasure ((1 / 2 : ENNReal) • Measure.dirac false) := Measure.smul_finite _ (by simp)
      have f2 : IsFiniteMeasure ((1 - 1 / 2 : ENNReal) • Measure.dirac true) := Measure.smul_finite _ (by simp)
      rw [integral_add_measure (.of_finite) (.of_finite), integral_smul_measure, integral_smul_measure, integral_dirac,
        integral_dirac, ENNReal.toReal_sub_of_le (by simp) (by simp)]
      simp [flip]
      norm_num)
  refine Err.subG_mono this ?_
  rw [← NNReal.coe_le_coe]
  push_cast
  rw [Real.norm_of_nonneg (by norm_num)]
  norm_num

theorem noisy_random (job : Job) {msgMod : Nat} {build : Build} {seed : Nat → Nat} {ms : List (Int × Nat)} {ts : List (Ctxt Term)}
    {n : Nat} (hr : Returns (job.encrypted freeKey msgMod build seed ms) ts n) {logN : Nat} (h5 : 5 ≤ logN) (hN : logN ≤ 62) :
    RandomErrors coins (fun _ => freeScheme) (fun ω => noisyKey (2 ^ logN) fun k => flips k ω) (2 ^ logN) flips (fun _ _ => 0)
      (2 ^ 100) 0 (2 ^ 64 / (2 * 2 ^ logN)) (bootedIn ts) where
  errors ω := ⟨_, noisy_errors hN _ (Err.booted_self job rfl hr), fun t _ => by
    rw [sub_zero, Int.natAbs_natCast]
    refine (Nat.mod_lt _ ?_).le
    rw [← pow_succ', Nat.pow_div (by omega) (by norm_num)]
    positivity⟩
  sub k := HasSubgaussianMGF.of_map (Y := fun ω : ℕ → Bool => ω (k + 1)) (X := fun b => (flip b : ℝ))
    (measurable_pi_apply _).aemeasurable (by
    unfold coins
    rw [Measure.infinitePi_map_eval]
    exact sub_flip)
  subMask t _ := by
    simp only [Int.cast_zero]
    exact HasSubgaussianMGF.fun_zero
  indep t _ := by
    have h1 : iIndepFun (fun (i : ℕ) (ω : ℕ → Bool) => if i = 0 then (0 : ℝ) else (flip (ω i) : ℝ)) coins :=
      iIndepFun_infinitePi (P := fun _ : ℕ => fair) (X := fun i b => if i = 0 then (0 : ℝ) else (flip b : ℝ))
        fun i => measurable_of_finite _
    let g : Option t.comb.1.support → ℕ := fun i => i.elim 0 fun k => k + 1
    have hg : Function.Injective g := by
      rintro (_ | ⟨a, ha⟩) (_ | ⟨b, hb⟩) h
      · rfl
      · simp [g] at h
      · simp [g] at h
      · simp [g] at h
        subst h; rfl
    refine (h1.precomp hg).congr ?_
    rintro (_ | k)
    · exact Filter.Eventually.of_forall fun ω => by simp [g]
    · exact Filter.Eventually.of_forall fun ω => by simp [g, flips]

theorem sizes12_exact : Sizes cloud12 0 (2 ^ 58 - 1) := Err.sizes_zero sizes12

/-- Case: the sign of `(x + y)·x`, at most 78 bootstraps, 23 words. -/
example : coins.real {ω | ¬ Yields (do
          let xs ← encryptInputs (noisyKey cloud12.polySize fun k => flips k ω) cloud12.msgMod .release id [(5, 3), (-6, 4)]
          runProg (arithCt freeScheme cloud12) [.add 0 1, .mul 2 0, .sgn 3] xs)
        (List.Forall₂ (fun v z => z.length ≤ 63 →
          Returns (parmDecrypt (noisyKey cloud12.polySize fun k => flips k ω) .release z) v 0) [5, -6, -1, -5, -1])}
      ≤ 78 * tail (2 ^ 64 / (2 * 2 ^ 11)) ((tolWeight cloud12.params.quadWeight ^ 2 : Nat) * (2 ^ 100 : NNReal) + (0 : NNReal)) +
        23 * tail 0 (2 ^ 100 : NNReal) := by
  have := C81_program_worst sizes12_exact shipped12 .release id [(5, 3), (-6, 4)] (by decide)
    [.add 0 1, .mul 2 0, .sgn 3] (by decide) (ls := [3, 4, 5, 10, 1]) (ls' := [3, 4, 5, 10, 1]) (c := 78) (by decide) rfl
    (fun ts n hr => noisy_random (progJob cloud12 [.add 0 1, .mul 2 0, .sgn 3]) hr (logN := 11) (by norm_num) (by norm_num)) (by decide)
  exact this

/-- Case: the maximum of two fresh encryptions. -/
example : ∃ ts n, Returns (do
        let xs ← encryptInputs freeKey cloud12.msgMod .release id [(5, 3), (-6, 4)]
        runProg (arithCt freeScheme cloud12) [.max 0 1] xs) ts n ∧
      coins.real {ω | ¬ Yields (do
          let xs ← encryptInputs (noisyKey cloud12.polySize fun k => flips k ω) cloud12.msgMod .release id [(5, 3), (-6, 4)]
          runProg (arithCt freeScheme cloud12) [.max 0 1] xs)
        (List.Forall₂ (fun v z => z.length ≤ 63 →
          Returns (parmDecrypt (noisyKey cloud12.polySize fun k => flips k ω) .release z) v 0) [5, -6, 5])}
      ≤ n * tail (2 ^ 64 / (2 * 2 ^ 11)) (cloud12.params.quadWeight * (2 ^ 100 : NNReal) + (0 : NNReal)) +
        (ts.map List.length).sum * tail 0 (2 ^ 100 : NNReal) := by
  obtain ⟨ts, n, hr⟩ := (progJob cloud12 [.max 0 1]).free_returns sizes12_exact
    (prog_yields shipped12 .release id [(5, 3), (-6, 4)] (by decide) [.max 0 1] (by decide) (ls := [3, 4, 4]) (by decide))
  exact ⟨ts, n, hr, C81_fresh sizes12_exact shipped12 (by decide) .release Function.injective_id (5, 3) (-6, 4) (by decide) 0 0
    (by decide) (by decide) (ls := [3, 4, 4]) (by decide) hr
    (noisy_random (progJob cloud12 [.max 0 1]) hr (logN := 11) (by norm_num) (by norm_num)) (by decide)⟩

end Demo
end Parm
