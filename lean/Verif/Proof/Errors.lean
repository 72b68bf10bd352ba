import Verif.SpecErrors
import Verif.Proof.Merged
import Verif.Proof.Patch
import Mathlib.LinearAlgebra.Finsupp.LinearCombination

/-!
# Subtracting the errors

A run on noisy ciphertexts is compared with a run on terms, with a key under which the phase of a term is that of the
ciphertext without the error of the combination.  Under this key all noise is zero, and the error appears as part of the drift.
-/

namespace Parm
namespace Err

theorem noise_eq (err : ℕ → ℤ) (t : Term) : t.noise err = Finsupp.linearCombination ℤ err t.comb.1 := by
  unfold Term.noise
  rw [Finsupp.linearCombination_apply]
  rfl

theorem noise_add (err : ℕ → ℤ) (s t : Term) : (Term.add s t).noise err = s.noise err + t.noise err := by
  rw [noise_eq, noise_eq, noise_eq, Mg.comb_add, Prod.fst_add, map_add]

theorem noise_neg (err : ℕ → ℤ) (t : Term) : (Term.neg t).noise err = - t.noise err := by
  rw [noise_eq, noise_eq, Mg.comb_neg, Prod.fst_neg, map_neg]

theorem noise_mulC (err : ℕ → ℤ) (t : Term) (k : BitVec 64) : (Term.mulC t k).noise err = k.toInt * t.noise err := by
  rw [noise_eq, noise_eq, Mg.comb_mulC, Prod.smul_fst, map_zsmul, smul_eq_mul]

theorem noise_addPt (err : ℕ → ℤ) (t : Term) (p : BitVec 64) : (Term.addPt t p).noise err = t.noise err := by
  rw [noise_eq, noise_eq, Mg.comb_addPt, Prod.fst_add, add_zero]

theorem noise_input (err : ℕ → ℤ) (i : Nat) : (Term.input i).noise err = err (2 * i) := by
  rw [noise_eq, Mg.comb_input, Finsupp.linearCombination_single, one_smul]

theorem noise_boot (err : ℕ → ℤ) (acc : List (BitVec 64)) (t : Term) :
    (Term.boot acc t).noise err = err (2 * lookupNo (acc, t.comb) + 1) := by
  rw [noise_eq, Mg.comb_boot, Finsupp.linearCombination_single, one_smul]

section
variable {S : Scheme} {ck : ClientKey S} {N : Nat} {err : ℕ → ℤ} {drift : Term → ℤ}

/-- phases of terms without their errors -/
noncomputable def shadow (S : Scheme) (ck : ClientKey S) (err : ℕ → ℤ) : ClientKey freeScheme where
  phase t := ck.phase (t.eval S (encryptions ck)) - BitVec.ofInt 64 (t.noise err)
  encrypt := freeKey.encrypt

theorem shadow_linear (lin : Linear S ck) : Linear freeScheme (shadow S ck err) where
  phase_add a b := by
    show ck.phase (S.add _ _) - BitVec.ofInt 64 (Term.noise err (.add a b)) = _
    rw [lin.phase_add, noise_add, BitVec.ofInt_add]
    show _ = (_ - _) + (_ - _)
    abel
  phase_neg a := by
    show ck.phase (S.neg _) - BitVec.ofInt 64 (Term.noise err (.neg a)) = _
    rw [lin.phase_neg, noise_neg, BitVec.ofInt_neg]
    show _ = -(_ - _)
    abel
  phase_mulC a k := by
    show ck.phase (S.mulC _ _) - BitVec.ofInt 64 (Term.noise err (.mulC a k)) = (_ - _) * k
    rw [lin.phase_mulC, noise_mulC, BitVec.ofInt_mul, BitVec.ofInt_toInt]
    ring
  phase_addPt a p := by
    show ck.phase (S.addPt _ _) - BitVec.ofInt 64 (Term.noise err (.addPt a p)) = (_ - _) + p
    rw [lin.phase_addPt, noise_addPt]
    abel

/-- encryption only uses how words are encrypted -/
theorem encryptFromVec_congr {ck ck' : ClientKey S} (h : ck.encrypt = ck'.encrypt) (msgMod : Nat) (seed : Nat → Nat) :
    ∀ (i : Nat) (v : List Int), parmEncryptFromVec ck msgMod seed i v = parmEncryptFromVec ck' msgMod seed i v
  | _, [] => rfl
  | i, a :: v => by
    unfold parmEncryptFromVec
    rw [encryptFromVec_congr h msgMod seed (i + 1) v]
    unfold encryptWord
    rw [h]

theorem encryptInputs_congr {ck ck' : ClientKey S} (h : ck.encrypt = ck'.encrypt) (msgMod : Nat) (build : Build) :
    ∀ (ms : List (Int × Nat)) (seed : Nat → Nat), encryptInputs ck msgMod build seed ms = encryptInputs ck' msgMod build seed ms
  | [], _ => rfl
  | (m, w) :: ms, seed => by
    unfold encryptInputs
    rw [encryptInputs_congr h msgMod build ms]
    unfold parmEncrypt
    simp only [encryptFromVec_congr h]

theorem encrypted_shadow (job : Job) (msgMod : Nat) (build : Build) (seed : Nat → Nat) (ms : List (Int × Nat)) :
    job.encrypted (shadow S ck err) msgMod build seed ms = job.encrypted freeKey msgMod build seed ms := by
  unfold Job.encrypted
  rw [encryptInputs_congr (ck := shadow S ck err) (ck' := freeKey) rfl]

/-- a term in which inputs stand for themselves -/
theorem eval_parts {ρ : Nat → Term} : ∀ {t : Term}, t.eval freeScheme ρ = t → ∀ u ∈ t.parts, u.eval freeScheme ρ = u
  | .input i, h, u, hu => by
    rw [Term.parts, Finset.mem_singleton] at hu
    rw [hu]; exact h
  | .boot acc t, h, u, hu => by
    rw [Term.parts, Finset.mem_insert] at hu
    rcases hu with rfl | hu
    · exact h
    · exact eval_parts (Term.boot.inj h).2 u hu
  | .add s t, h, u, hu => by
    rw [Term.parts, Finset.mem_union] at hu
    exact hu.elim (eval_parts (Term.add.inj h).1 u) (eval_parts (Term.add.inj h).2 u)
  | .neg t, h, u, hu => eval_parts (Term.neg.inj h) u hu
  | .mulC t _, h, u, hu => eval_parts (Term.mulC.inj h).1 u hu
  | .addPt t _, h, u, hu => eval_parts (Term.addPt.inj h).1 u hu

theorem part_booted {acc : List (BitVec 64)} {u : Term} : ∀ {t : Term}, Term.boot acc u ∈ t.parts → u ∈ t.booted
  | .input i, h => by simp [Term.parts] at h
  | .boot a t, h => by
    rw [Term.parts, Finset.mem_insert] at h
    rcases h with h | h
    · cases h; simp [Term.booted]
    · simp [Term.booted, part_booted h]
  | .add s t, h => by
    rw [Term.parts, Finset.mem_union] at h
    simp only [Term.booted, List.mem_append]
    exact h.imp part_booted part_booted
  | .neg t, h => part_booted (t := t) h
  | .mulC t _, h => part_booted (t := t) h
  | .addPt t _, h => part_booted (t := t) h

theorem booted_part {u : Term} : ∀ {t : Term}, u ∈ t.booted → ∃ acc, Term.boot acc u ∈ t.parts
  | .input i, h => by simp [Term.booted] at h
  | .boot a t, h => by
    rw [Term.booted, List.mem_cons] at h
    rcases h with rfl | h
    · exact ⟨a, by simp [Term.parts]⟩
    · obtain ⟨acc, h⟩ := booted_part h
      exact ⟨acc, by simp [Term.parts, h]⟩
  | .add s t, h => by
    rw [Term.booted, List.mem_append] at h
    rcases h with h | h <;> obtain ⟨acc, h⟩ := booted_part h
    · exact ⟨acc, by simp [Term.parts, h]⟩
    · exact ⟨acc, by simp [Term.parts, h]⟩
  | .neg t, h => booted_part (t := t) h
  | .mulC t _, h => booted_part (t := t) h
  | .addPt t _, h => booted_part (t := t) h

/-- the phases of encryptions and of bootstraps with a small error, under the shadow key -/
theorem part_ok {U : Set Term} (h : Errors S ck N err drift U) {u : Term} (hu : u.eval freeScheme (encryptions (shadow S ck err)) = u)
    (hd : ∀ acc t, u = .boot acc t → t ∈ U ∧ (drift t - t.noise err).natAbs < 2 ^ 58) :
    PartOk (shadow S ck err) N 0 (2 ^ 58 - 1) 0 u := by
  cases u with
  | input i =>
    intro hm
    refine ⟨0, le_rfl, ?_⟩
    show ck.phase (ck.encrypt _ _) - BitVec.ofInt 64 (Term.noise err (.input _)) = _
    rw [Nat.unpair_pair]
    simp only [BitVec.ofNat_toNat, BitVec.setWidth_eq]
    rw [h.encrypt _ _ hm, noise_input, BitVec.ofInt_add, add_sub_cancel_right, add_zero]
  | boot acc t =>
    have ht : t.eval freeScheme (encryptions (shadow S ck err)) = t := (Term.boot.inj hu).2
    show BootOk _ _ _ _ _ acc (t.eval freeScheme (encryptions (shadow S ck err)))
    rw [ht]
    rintro hl -
    obtain ⟨k, hk, h1, h2⟩ := h.boot acc t (hd acc t rfl).1 hl
    refine ⟨k, drift t - t.noise err, 0, hk, Nat.le_sub_one_of_lt (hd acc t rfl).2, le_rfl, ?_, ?_⟩
    · show ck.phase (t.eval S (encryptions ck)) - BitVec.ofInt 64 (t.noise err) = _
      rw [h1, ← add_sub_assoc, sub_eq_add_neg _ (t.noise err), BitVec.ofInt_add _ (-_), BitVec.ofInt_neg, sub_eq_add_neg]
    · show ck.phase (S.pbs acc (t.eval S (encryptions ck))) - BitVec.ofInt 64 (Term.noise err (.boot acc t)) = _
      rw [h2, noise_boot, add_sub_cancel_right]
      simp
  | add _ _ | neg _ | mulC _ _ | addPt _ _ => trivial

theorem sizes_zero {pc : Cloud} {B D : Nat} (sz : Sizes pc B D) : Sizes pc 0 (2 ^ 58 - 1) where
  msgMod := sz.msgMod
  carryMod := sz.carryMod
  bitPrecision := sz.bitPrecision
  polySize := sz.polySize
  tolerance := by rw [Nat.mul_zero]; norm_num
  drift := sz.drift.trans (by have := sz.tolerance; omega)

/-- a word holding a digit without noise under the shadow key holds it with noise below half a step under the real one -/
theorem word_real {t : Word Term} {w : Word S.C} (hr : WRel (EvalRel ck) t w) {m : Int}
    (h : WordEnc (shadow S ck err) 0 t m 1) (hn : ∀ u, t.ct = .ct u → (u.noise err).natAbs < 2 ^ 58) :
    WordEnc ck (2 ^ 58 - 1) w m 1 := by
  cases hr with
  | @ct u c mm e =>
    obtain ⟨h1, e', h2, h3⟩ := h
    refine ⟨h1, u.noise err, by have := hn u rfl; omega, ?_⟩
    obtain rfl : e' = 0 := by omega
    have h4 : ck.phase (u.eval S (encryptions ck)) - BitVec.ofInt 64 (u.noise err) = BitVec.ofInt 64 (m * 2 ^ 59 + 0) := h3
    rw [e, BitVec.ofInt_add, ← sub_eq_iff_eq_add, h4, add_zero]
  | triv p mm => exact h

theorem valid_real {t : Ctxt Term} {z : Ctxt S.C} (hr : CRel (EvalRel ck) t z) {v : Int}
    (h : Valid (shadow S ck err) 0 t v) (hn : ∀ w ∈ t, ∀ u, w.ct = .ct u → (u.noise err).natAbs < 2 ^ 58) :
    Valid ck (2 ^ 58 - 1) z v := by
  obtain ⟨d, h1, h2⟩ := h
  have hl := hr.length_eq
  refine ⟨d, fun i hi => ?_, by rw [← hl]; exact h2⟩
  have hi' : i < t.length := by omega
  obtain ⟨g1, g2⟩ := h1 i hi'
  refine ⟨word_real (t := t[i]) ?_ g1 (hn _ (List.getElem_mem hi')), g2⟩
  have := (List.forall₂_iff_get.1 hr).2 i hi' hi
  simpa using this

theorem valid_patched {N B D T : Nat} {f : List (BitVec 64) → S.C → S.C} {k : Nat} {z : Ctxt S.C} {v : Int}
    (h : Valid (patchedKey S ck N B D T f) k z v) : Valid ck k z v := by
  obtain ⟨d, h1, h2⟩ := h
  refine ⟨d, fun i hi => ⟨?_, (h1 i hi).2⟩, h2⟩
  have key : ∀ w : Word S.C, WordEnc (patchedKey S ck N B D T f) k w (d i) 1 → WordEnc ck k w (d i) 1 := fun w h => by
    obtain ⟨c, m⟩ := w
    cases c <;> exact h
  exact key _ (h1 i hi).1

/-- the terms of a run stand for themselves -/
theorem run_self (job : Job) {ck : ClientKey freeScheme} (he : ck.encrypt = freeKey.encrypt) {msgMod : Nat} {build : Build}
    {seed : Nat → Nat} {ms : List (Int × Nat)} {ts : List (Ctxt Term)} {n : Nat}
    (hr : Returns (job.encrypted freeKey msgMod build seed ms) ts n) :
    ∀ z ∈ ts, ∀ w ∈ z, ∀ t, w.ct = .ct t → t.eval freeScheme (encryptions ck) = t := by
  rcases job.encrypted_rel ck msgMod build seed ms with ⟨a, a', i, r1, r2, r3, -⟩ | ⟨r1, -⟩
  · obtain ⟨rfl, -⟩ := r1.unique hr
    unfold Job.encrypted at r2
    rw [encryptInputs_congr he] at r2
    obtain ⟨rfl, -⟩ := r2.unique hr
    intro z hz w hw t e
    obtain ⟨i, hi, rfl⟩ := List.getElem_of_mem hz
    have h1 := (List.forall₂_iff_get.1 r3).2 i hi hi
    obtain ⟨j, hj, rfl⟩ := List.getElem_of_mem hw
    have h2 := (List.forall₂_iff_get.1 h1).2 j (by simpa using hj) (by simpa using hj)
    simp only [List.get_eq_getElem] at h2
    generalize hq : a'[i][j] = q at h2 e
    cases h2 with
    | ct m e' => cases e; exact e'.symm
    | triv p m => cases e
  · exact absurd r1 hr.not_allFail

/-- so do the words bootstrapped on the way -/
theorem booted_self (job : Job) {ck : ClientKey freeScheme} (he : ck.encrypt = freeKey.encrypt) {msgMod : Nat} {build : Build}
    {seed : Nat → Nat} {ms : List (Int × Nat)} {ts : List (Ctxt Term)} {n : Nat}
    (hr : Returns (job.encrypted freeKey msgMod build seed ms) ts n) :
    ∀ t ∈ bootedIn ts, t.eval freeScheme (encryptions ck) = t := by
  rintro u ⟨z, hz, w, hw, t, e, hu⟩
  obtain ⟨acc, hp⟩ := booted_part hu
  exact (Term.boot.inj (eval_parts (run_self job he hr z hz w hw t e) _ hp)).2

/-- **Correctness from small errors.**  If the error of every word that is bootstrapped, together with the drift, and the error
of every word of the results are below half a step, then the results are valid. -/
theorem correct (job : Job) {pc : Cloud} {B D : Nat} (sz : Sizes pc B D)
    {build : Build} {seed : Nat → Nat} {ms : List (Int × Nat)} {Q : List Int → Prop}
    (hP : ∀ (S : Scheme) (ck : ClientKey S) (B D : Nat), Setting S ck pc B D →
      Yields (job.encrypted ck pc.msgMod build seed ms) fun zs => ∃ vs, Q vs ∧ List.Forall₂ (fun z v => Valid ck B z v) zs vs)
    {ts : List (Ctxt Term)} {n : Nat} (hr : Returns (job.encrypted freeKey pc.msgMod build seed ms) ts n)
    (h : Errors S ck pc.polySize err drift (bootedIn ts))
    (hb : ∀ t ∈ bootedIn ts, (drift t - t.noise err).natAbs < 2 ^ 58)
    (hw : ∀ z ∈ ts, ∀ w ∈ z, ∀ t, w.ct = .ct t → (t.noise err).natAbs < 2 ^ 58) :
    Yields (job.encrypted ck pc.msgMod build seed ms) fun zs =>
      ∃ vs, Q vs ∧ List.Forall₂ (fun z v => Valid ck (2 ^ 58 - 1) z v) zs vs := by
  have self := run_self job (ck := shadow S ck err) rfl hr
  have key := job.local (S := freeScheme) (ck := shadow S ck err) (shadow_linear h.linear) (sizes_zero sz) (build := build) (seed := seed) (ms := ms)
    (P := fun zs => ∃ vs, Q vs ∧ List.Forall₂ (fun z v => Valid (shadow S ck err) 0 z v) zs vs)
    (fun f st => (hP _ _ _ _ st).mono fun zs ⟨vs, h1, h2⟩ => ⟨vs, h1, h2.imp fun z v h => valid_patched h⟩) hr fun z hz w hw' t e u hu =>
      part_ok h (eval_parts (self z hz w hw' t e) u hu) fun acc t' e' =>
        have hm : t' ∈ bootedIn ts := ⟨z, hz, w, hw', t, e, part_booted (by rw [← e']; exact hu)⟩
        ⟨hm, hb t' hm⟩
  rw [encrypted_shadow] at key
  obtain ⟨zs, k, h1, vs, h2, h3⟩ := key
  obtain ⟨rfl, -⟩ := h1.unique hr
  rcases job.encrypted_rel ck pc.msgMod build seed ms with ⟨a, a', i, r1, r2, r3, -⟩ | ⟨r1, -⟩
  · obtain ⟨rfl, -⟩ := r1.unique hr
    refine ⟨a', i, r2, vs, h2, ?_⟩
    refine List.forall₂_iff_get.2 ⟨r3.length_eq.symm.trans h3.length_eq, fun j hj hv => ?_⟩
    have hj' : j < a.length := by rw [r3.length_eq]; exact hj
    exact valid_real ((List.forall₂_iff_get.1 r3).2 j hj' hj) ((List.forall₂_iff_get.1 h3).2 j hj' hv)
      (hw _ (List.get_mem _ _))
  · exact absurd r1 hr.not_allFail

end

end Err
end Parm
