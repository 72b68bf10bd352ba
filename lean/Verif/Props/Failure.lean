import Verif.Proof.Patch
import Verif.Props.WorstCase
import Verif.Props.NN
import Mathlib.MeasureTheory.Measure.Dirac

/-!
# Property C63: failure probabilities

The other correctness theorems assume that all bootstraps and encryptions keep their noise bound.  Here each of them
may fail with a probability of at most `ε`, in whatever way and however dependent on the others.
-/

namespace Parm
open MeasureTheory

/-- The scheme, its keys and its randomness are drawn from a probability space: the linear operations are always exact,
an encryption of a word and a bootstrap of whatever can be computed keep their promise with a probability of at least
`1 - ε`. -/
structure Random {Ω : Type} [MeasurableSpace Ω] (μ : Measure Ω) (S : Ω → Scheme) (ck : ∀ ω, ClientKey (S ω))
    (N B D T : Nat) (ε : ENNReal) : Prop where
  linear : ∀ ω, Linear (S ω) (ck ω)
  encrypt : ∀ (seed : Nat) (mu : BitVec 64), mu.toNat < 32 → μ {ω | ¬ EncryptOk (ck ω) B seed mu} ≤ ε
  boot : ∀ (acc : List (BitVec 64)) (t : Term),
    μ {ω | ¬ BootOk (ck ω) N B D T acc (t.eval (S ω) (encryptions (ck ω)))} ≤ ε

section
variable {Ω : Type} [MeasurableSpace Ω] {μ : Measure Ω} {S : Ω → Scheme} {ck : ∀ ω, ClientKey (S ω)} {N B D T : Nat}
  {ε : ENNReal} {pc : Cloud}

theorem Random.part (h : Random μ S ck N B D T ε) : ∀ u : Term, μ {ω | ¬ PartOk (ck ω) N B D T u} ≤ ε
  | .input i => by
    by_cases hm : (BitVec.ofNat 64 i.unpair.2).toNat < 32
    · refine le_trans (measure_mono ?_) (h.encrypt i.unpair.1 _ hm)
      intro ω hω
      exact fun h => hω fun _ => h
    · simp only [PartOk, hm, false_imp_iff, not_true, Set.ofPred_false, measure_empty]
      exact zero_le
  | .boot acc t => h.boot acc t
  | .add _ _ | .neg _ | .mulC _ _ | .addPt _ _ => by simp [PartOk]

/-- The probability that something wrong comes out is at most the number of words and bootstraps times `ε`. -/
theorem Job.failure (job : Job) (h : Random μ S ck pc.polySize B D (tolWeight pc.params.quadWeight * B) ε)
    (sz : Sizes pc B D) {build : Build} {seed : Nat → Nat} {ms : List (Int × Nat)} {c : Nat}
    (hc : ∀ {xs zs s s'}, List.Forall₂ (fun (x : Ctxt Term) n => x.length ≤ n) xs (ms.map (·.2)) →
      job.run freeScheme xs s = .ok (zs, s') → s'.pbs ≤ s.pbs + c)
    {P : ∀ ω, List (Ctxt (S ω).C) → Prop}
    (hP : ∀ ω f, Setting (patched (S ω) (ck ω) pc.polySize B D (tolWeight pc.params.quadWeight * B) f)
        (patchedKey (S ω) (ck ω) pc.polySize B D (tolWeight pc.params.quadWeight * B) f) pc B D →
      Yields (job.encrypted (patchedKey (S ω) (ck ω) pc.polySize B D (tolWeight pc.params.quadWeight * B) f)
        pc.msgMod build seed ms) (P ω)) :
    μ {ω | ¬ Yields (job.encrypted (ck ω) pc.msgMod build seed ms) (P ω)} ≤ ((ms.map (·.2)).sum + c : Nat) * ε := by
  rcases (job.encrypted_rel freeKey pc.msgMod build seed ms).left with ⟨zs, n, hr⟩ | hf
  · obtain ⟨Y, hY, hin⟩ : ∃ Y : Finset Term, Y.card ≤ (ms.map (·.2)).sum + c ∧ LIn Y zs := by
      obtain ⟨_, _, -, e⟩ := hr (.init .seq)
      exact job.samples hc _ _ _ e
    calc μ {ω | ¬ Yields (job.encrypted (ck ω) pc.msgMod build seed ms) (P ω)}
        ≤ μ (⋃ u ∈ Y, {ω | ¬ PartOk (ck ω) pc.polySize B D (tolWeight pc.params.quadWeight * B) u}) := by
          refine measure_mono fun ω hω => ?_
          by_contra hno
          simp only [Set.mem_iUnion, Set.mem_ofPred_eq, not_exists, not_not] at hno
          exact hω (job.local (h.linear ω) sz (hP ω) hr fun z hz w hw t e u hu => hno u (hin z hz w hw t e hu))
      _ ≤ ∑ u ∈ Y, μ {ω | ¬ PartOk (ck ω) pc.polySize B D (tolWeight pc.params.quadWeight * B) u} :=
          measure_biUnion_finset_le _ _
      _ ≤ ∑ _u ∈ Y, ε := Finset.sum_le_sum fun u _ => h.part u
      _ = Y.card * ε := by simp
      _ ≤ ((ms.map (·.2)).sum + c : Nat) * ε := by gcongr
  · have : {ω | ¬ Yields (job.encrypted (ck ω) pc.msgMod build seed ms) (P ω)} = ∅ := by
      refine Set.eq_empty_of_forall_notMem fun ω _ => ?_
      obtain ⟨f, hf'⟩ := exists_exact (h.linear ω) sz.polySize
      obtain ⟨ws, k, h1, -⟩ := hP ω f (patched_setting (h.linear ω) sz hf')
      rcases job.encrypted_rel (patchedKey (S ω) (ck ω) pc.polySize B D (tolWeight pc.params.quadWeight * B) f)
        pc.msgMod build seed ms with ⟨a, a', i, r1, -⟩ | ⟨-, r1⟩
      · exact r1.not_allFail hf
      · exact h1.not_allFail r1
    rw [this, measure_empty]
    exact zero_le

/-- decryption uses the phases only -/
theorem parmDecrypt_patched {S : Scheme} {ck : ClientKey S} {N B D T : Nat} {f : List (BitVec 64) → S.C → S.C}
    {build : Build} {z : Ctxt S.C} : parmDecrypt (patchedKey S ck N B D T f) build z = parmDecrypt ck build z := by
  have e : parmDecryptToVec (patchedKey S ck N B D T f) z = parmDecryptToVec ck z := by
    unfold parmDecryptToVec
    have : ∀ w : Word S.C, decryptMi (some (patchedKey S ck N B D T f)) w = decryptMi (some ck) w := fun w => by
      obtain ⟨c, m⟩ := w
      cases c <;> rfl
    exact congrArg (fun g => List.mapM g z) (funext this)
  show (parmDecryptToVec (patchedKey S ck N B D T f) z >>= _) = (parmDecryptToVec ck z >>= _)
  rw [e]

theorem returns_patched {S : Scheme} {ck : ClientKey S} {N B D T : Nat} {f : List (BitVec 64) → S.C → S.C}
    {build : Build} {z : Ctxt S.C} {v : Int} (h : Returns (parmDecrypt (patchedKey S ck N B D T f) build z) v 0) :
    Returns (parmDecrypt ck build z) v 0 := parmDecrypt_patched (f := f) ▸ h

/-- running a program is a job -/
def progJob (pc : Cloud) (p : List Instr) : Job where
  run S xs := runProg (arithCt S pc) p xs
  rel h _ _ hx := (h.arithCt pc).prog p hx
  tr h := (tr_arithCt pc).prog p h

/-- evaluating a network is a job -/
def netJob (pc : Cloud) (nn : NeuralNetwork) : Job where
  run S xs := nn.eval (arithCt S pc) xs
  rel h _ _ hx := (h.arithCt pc).evalLayers nn.layers hx .nil
  tr h := (tr_arithCt pc).evalLayers nn.layers h fun _ h => by cases h

/-- **C63**, without probabilities.  Run the program symbolically, on samples numbered by seed and message.  If the
encryptions and bootstraps the results are made of keep their promise, the encrypted run returns and its results of at
most 63 words decrypt to the exact values, whatever other bootstraps do. -/
theorem C63_local {S : Scheme} {ck : ClientKey S} (lin : Linear S ck) (sz : Sizes pc B D) (sh : Shipped pc)
    (build : Build) (seed : Nat → Nat) (ms : List (Int × Nat))
    (hm : ∀ mw ∈ ms, -2 ^ 63 < mw.1 ∧ mw.1 < 2 ^ 63 ∧ mw.2 ≤ 63 ∧ mw.1.natAbs < 2 ^ mw.2)
    (p : List Instr) (hwf : wfProg p ms.length) {ls : List Nat} (hlen : lenProg p (ms.map (·.2)) = some ls)
    {ts : List (Ctxt Term)} {n : Nat}
    (hr : Returns (do
      let xs ← encryptInputs freeKey pc.msgMod build seed ms
      runProg (arithCt freeScheme pc) p xs) ts n)
    (hok : ∀ z ∈ ts, ∀ w ∈ z, ∀ t, w.ct = .ct t → ∀ u ∈ t.parts,
      PartOk ck pc.polySize B D (tolWeight pc.params.quadWeight * B) u) :
    Yields (do
        let xs ← encryptInputs ck pc.msgMod build seed ms
        runProg (arithCt S pc) p xs)
      (fun zs => zs.length = (valProg p (ms.map (·.1))).length ∧ ∀ i (hi : i < zs.length), zs[i].length ≤ 63 →
        Returns (parmDecrypt ck build zs[i]) ((valProg p (ms.map (·.1))).getD i 0) 0) := by
  refine (progJob pc p).local lin sz ?_ hr hok
  intro f st
  refine Yields.bind (encryptInputs_spec st build ms seed hm) fun xs hx => ?_
  have e : xs.length = ms.length := by rw [← hx.1]; simp
  refine (runProg_valid st p (ScalarsOk.use (Or.inr sh)) hx (by rwa [e]) hlen).mono ?_
  rintro zs ⟨h1, h2, h3⟩
  exact ⟨h1.symm, fun i hi h63 => returns_patched ((h3 i hi).1.decrypt st build h63)⟩

/-- **C63**, programs.  Encrypt the inputs, run any program and decrypt the results: the probability that the run does
not return, or that one of the results of at most 63 words does not decrypt to the exact value, is at most `ε` times the
number of encrypted words plus the worst-case number of bootstraps (C62). -/
theorem C63_program (h : Random μ S ck pc.polySize B D (tolWeight pc.params.quadWeight * B) ε) (sz : Sizes pc B D)
    (sh : Shipped pc) (build : Build) (seed : Nat → Nat) (ms : List (Int × Nat))
    (hm : ∀ mw ∈ ms, -2 ^ 63 < mw.1 ∧ mw.1 < 2 ^ 63 ∧ mw.2 ≤ 63 ∧ mw.1.natAbs < 2 ^ mw.2)
    (p : List Instr) (hwf : wfProg p ms.length) {ls ls' : List Nat} {c : Nat}
    (hlen : lenProg p (ms.map (·.2)) = some ls)
    (hc : worst (runProg (arithCost pc) p (ms.map (·.2))) = some (ls', c)) :
    μ {ω | ¬ Yields (do
          let xs ← encryptInputs (ck ω) pc.msgMod build seed ms
          runProg (arithCt (S ω) pc) p xs)
        (fun zs => zs.length = (valProg p (ms.map (·.1))).length ∧ ∀ i (hi : i < zs.length), zs[i].length ≤ 63 →
          Returns (parmDecrypt (ck ω) build zs[i]) ((valProg p (ms.map (·.1))).getD i 0) 0)}
      ≤ ((ms.map (·.2)).sum + c : Nat) * ε := by
  refine (progJob pc p).failure h sz (build := build) (seed := seed) (ms := ms)
    (fun hx e => (C62_program sh.2 p hc hx e).2) ?_
  intro ω f st
  refine Yields.bind (encryptInputs_spec st build ms seed hm) fun xs hx => ?_
  have e : xs.length = ms.length := by rw [← hx.1]; simp
  refine (runProg_valid st p (ScalarsOk.use (Or.inr sh)) hx (by rwa [e]) hlen).mono ?_
  rintro zs ⟨h1, h2, h3⟩
  exact ⟨h1.symm, fun i hi h63 => returns_patched ((h3 i hi).1.decrypt st build h63)⟩

/-- **C63**, networks. -/
theorem C63_network (h : Random μ S ck pc.polySize B D (tolWeight pc.params.quadWeight * B) ε) (sz : Sizes pc B D)
    (sh : Shipped pc) (build : Build) (seed : Nat → Nat) (ms : List (Int × Nat))
    (hm : ∀ mw ∈ ms, -2 ^ 63 < mw.1 ∧ mw.1 < 2 ^ 63 ∧ mw.2 ≤ 63 ∧ mw.1.natAbs < 2 ^ mw.2)
    (nn : NeuralNetwork) (hr : NetRange nn) {ls : List Nat} {c : Nat}
    (hc : worst (nn.eval (arithCost pc) (ms.map (·.2))) = some (ls, c)) :
    μ {ω | ¬ Yields (do
          let xs ← encryptInputs (ck ω) pc.msgMod build seed ms
          nn.eval (arithCt (S ω) pc) xs)
        (List.Forall₂ (fun v z => z.length ≤ 63 → Returns (parmDecrypt (ck ω) build z) v 0)
          (netZ nn.layers (ms.map (·.1))))}
      ≤ ((ms.map (·.2)).sum + c : Nat) * ε := by
  refine (netJob pc nn).failure h sz (build := build) (seed := seed) (ms := ms)
    (fun hx e => (C62_network sh.2 nn hc hx e).2) ?_
  intro ω f st
  refine Yields.bind (encryptInputs_spec st build ms seed hm) fun xs hx => ?_
  have hv : List.Forall₂ (fun x v => Valid (patchedKey (S ω) (ck ω) pc.polySize B D
      (tolWeight pc.params.quadWeight * B) f) B x v) xs (ms.map (·.1)) := by
    refine List.forall₂_iff_get.2 ⟨hx.1.symm, fun i h1 h2 => ?_⟩
    have := (hx.2.2 i h1).1
    rwa [List.getD_eq_getElem _ _ h2] at this
  refine (C25_encrypted st sh hr hv).mono fun zs hz => ?_
  exact hz.flip.imp fun v z h h63 => returns_patched (Valid.decrypt st build h h63)

end

/-! ### Cases -/

namespace Demo

/-- The demo scheme with a coin: if it falls on `false`, all bootstraps return the same ciphertext of phase 0. -/
def coinScheme (ω : Bool) : Scheme := { scheme with pbs := fun acc c => if ω then scheme.pbs acc c else (0, 0) }

def coinKey (ω : Bool) : ClientKey (coinScheme ω) := ⟨ck.phase, ck.encrypt⟩

/-- the coin falls on `false` with probability `ε` -/
noncomputable def coin (ε : ENNReal) : Measure Bool := ε • Measure.dirac false + (1 - ε) • Measure.dirac true

theorem sizes12 : Sizes cloud12 (2 ^ 53) (2 ^ 51) :=
  ⟨st12.msgMod, st12.carryMod, st12.bitPrecision, st12.polySize, st12.tolerance, by decide⟩

theorem random_coin (ε : ENNReal) : Random (coin ε) coinScheme coinKey cloud12.polySize (2 ^ 53) (2 ^ 51)
    (tolWeight cloud12.params.quadWeight * 2 ^ 53) ε where
  linear _ := ⟨st12.sound.phase_add, st12.sound.phase_neg, st12.sound.phase_mulC, st12.sound.phase_addPt⟩
  encrypt seed mu hmu := by
    have : {ω | ¬ EncryptOk (coinKey ω) (2 ^ 53) seed mu} = ∅ := by
      refine Set.eq_empty_of_forall_notMem fun ω hω => hω ?_
      exact st12.sound.phase_encrypt seed mu hmu
    rw [this, measure_empty]
    exact zero_le
  boot acc t := by
    have : {ω | ¬ BootOk (coinKey ω) cloud12.polySize (2 ^ 53) (2 ^ 51) (tolWeight cloud12.params.quadWeight * 2 ^ 53)
        acc (t.eval (coinScheme ω) (encryptions (coinKey ω)))} ⊆ {false} := by
      intro ω hω
      cases ω
      · rfl
      · refine absurd ?_ hω
        rintro hl ⟨m, n, h1, h2⟩
        exact st12.sound.phase_pbs acc _ m n hl h1 h2
    refine (measure_mono this).trans ?_
    simp [coin]

/-- Case: the sign of `(x + y)·x`, 7 words and at most 78 bootstraps. -/
example (ε : ENNReal) : coin ε {ω | ¬ Yields (do
          let xs ← encryptInputs (coinKey ω) cloud12.msgMod .release id [(5, 3), (-6, 4)]
          runProg (arithCt (coinScheme ω) cloud12) [.add 0 1, .mul 2 0, .sgn 3] xs)
        (fun zs => zs.length = 5 ∧ ∀ i (hi : i < zs.length), zs[i].length ≤ 63 →
          Returns (parmDecrypt (coinKey ω) .release zs[i]) (([5, -6, -1, -5, -1] : List Int).getD i 0) 0)}
      ≤ 85 * ε := by
  have := C63_program (random_coin ε) sizes12 shipped12 .release id [(5, 3), (-6, 4)] (by decide)
    [.add 0 1, .mul 2 0, .sgn 3] (by decide) (ls := [3, 4, 5, 10, 1]) (ls' := [3, 4, 5, 10, 1]) (c := 78) (by decide) rfl
  exact this

end Demo
end Parm
