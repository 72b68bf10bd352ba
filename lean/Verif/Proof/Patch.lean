import Verif.Proof.Traced
import Verif.Props.Program
import Verif.Props.Weights

/-!
# Repairing the bootstraps and encryptions that went wrong

A scheme of which only some bootstraps and encryptions keep their promise agrees, on everything made of those, with a
scheme all of whose bootstraps and encryptions do.
-/

namespace Parm

/-- every phase is near one of the `2N` positions -/
theorem near_position {N : Nat} (hN : ∃ logN, 5 ≤ logN ∧ logN ≤ 63 ∧ N = 2 ^ logN) (φ : BitVec 64) :
    ∃ (k : Nat) (d : Int), k < 2 * N ∧ d.natAbs ≤ 2 ^ 62 / N ∧
      φ = BitVec.ofInt 64 ((k : Int) * (2 ^ 64 / (2 * N) : Nat) + d) := by
  obtain ⟨logN, _, h2, rfl⟩ := hN
  obtain ⟨Δ, hΔ⟩ : ∃ Δ, Δ = 2 ^ 64 / (2 * 2 ^ logN) := ⟨_, rfl⟩
  have hmul : 2 * 2 ^ logN * Δ = 2 ^ 64 := by
    rw [hΔ]
    refine Nat.mul_div_cancel' ⟨2 ^ (63 - logN), ?_⟩
    rw [← Nat.pow_succ', ← Nat.pow_add]
    congr 1; omega
  have hpos : 0 < Δ := by
    rcases Nat.eq_zero_or_pos Δ with h | h
    · rw [h] at hmul; simp at hmul
    · exact h
  have hhalf : Δ / 2 ≤ 2 ^ 62 / 2 ^ logN := by
    rw [Nat.le_div_iff_mul_le (by positivity)]
    have : Δ / 2 * 2 ≤ Δ := Nat.div_mul_le_self _ _
    have h3 : Δ / 2 * 2 ^ logN * 4 ≤ 2 ^ 62 * 4 := by
      calc Δ / 2 * 2 ^ logN * 4 = (2 * 2 ^ logN) * (Δ / 2 * 2) := by ring
        _ ≤ (2 * 2 ^ logN) * Δ := Nat.mul_le_mul_left _ this
        _ = 2 ^ 62 * 4 := by rw [hmul]; norm_num
    omega
  rw [← hΔ]
  generalize hNN : (2 : Nat) * 2 ^ logN = P at hmul ⊢
  obtain ⟨q, hq⟩ : ∃ q, q = (φ.toNat + Δ / 2) / Δ := ⟨_, rfl⟩
  obtain ⟨r, hr⟩ : ∃ r, r = (φ.toNat + Δ / 2) % Δ := ⟨_, rfl⟩
  have hdm : Δ * q + r = φ.toNat + Δ / 2 := by rw [hq, hr]; exact Nat.div_add_mod _ _
  have hrl : r < Δ := by rw [hr]; exact Nat.mod_lt _ hpos
  have hql : q ≤ P := by
    have : φ.toNat < 2 ^ 64 := φ.isLt
    by_contra hc
    have : Δ * (P + 1) ≤ Δ * q := Nat.mul_le_mul_left _ (by omega)
    rw [Nat.mul_succ, Nat.mul_comm Δ P, hmul] at this
    omega
  have hd : ((r : Int) - (Δ / 2 : Nat)).natAbs ≤ Δ / 2 := by omega
  have hφ : φ = BitVec.ofInt 64 (φ.toNat : Int) := by
    apply BitVec.eq_of_toNat_eq
    simp
  have hval : (φ.toNat : Int) = (q : Int) * Δ + ((r : Int) - (Δ / 2 : Nat)) := by
    have := congrArg (Nat.cast : Nat → Int) hdm
    push_cast at this ⊢
    linarith
  rcases Nat.lt_or_ge q P with h | h
  · exact ⟨q, _, h, hd.trans hhalf, by rw [← hval]; exact hφ⟩
  · have : q = P := by omega
    refine ⟨0, _, ?_, hd.trans hhalf, ?_⟩
    · rcases Nat.eq_zero_or_pos P with h0 | h0
      · rw [h0] at hmul; simp at hmul
      · exact h0
    · rw [hφ, hval, this]
      have e : (P : Int) * Δ = 2 ^ 64 := by exact_mod_cast hmul
      rw [e]
      simp [BitVec.ofInt_add]

section
variable {S : Scheme}

open Classical in
/-- bootstraps that break their promise replaced by exact ones -/
noncomputable def patched (S : Scheme) (ck : ClientKey S) (N B D T : Nat)
    (exact_ : List (BitVec 64) → S.C → S.C) : Scheme :=
  { S with pbs := fun acc c => if BootOk ck N B D T acc c then S.pbs acc c else exact_ acc c }

open Classical in
noncomputable def patchedKey (S : Scheme) (ck : ClientKey S) (N B D T : Nat)
    (exact_ : List (BitVec 64) → S.C → S.C) : ClientKey (patched S ck N B D T exact_) :=
  ⟨ck.phase, fun seed mu => if mu.toNat < 32 → EncryptOk ck B seed mu then ck.encrypt seed mu
    else S.addPt (S.add (ck.encrypt seed mu) (S.neg (ck.encrypt seed mu))) (BitVec.ofInt 64 ((mu.toNat : Int) * 2 ^ 59))⟩

/-- there is a choice of exact bootstraps -/
theorem exists_exact {ck : ClientKey S} (lin : Linear S ck) {N : Nat}
    (hN : ∃ logN, 5 ≤ logN ∧ logN ≤ 63 ∧ N = 2 ^ logN) : ∃ f : List (BitVec 64) → S.C → S.C,
      ∀ acc c, ∃ (k : Nat) (d : Int), k < 2 * N ∧ d.natAbs ≤ 2 ^ 62 / N ∧
        ck.phase c = BitVec.ofInt 64 ((k : Int) * (2 ^ 64 / (2 * N) : Nat) + d) ∧
        ck.phase (f acc c) = negacyclic acc k := by
  choose k d h1 h2 h3 using near_position hN
  refine ⟨fun acc c => S.addPt (S.add c (S.neg c)) (negacyclic acc (k (ck.phase c))), fun acc c =>
    ⟨k (ck.phase c), d (ck.phase c), h1 _, h2 _, h3 _, ?_⟩⟩
  rw [lin.phase_addPt, lin.phase_add, lin.phase_neg]
  simp

open Classical in
theorem patched_setting {ck : ClientKey S} {pc : Cloud} {B D : Nat} (lin : Linear S ck) (sz : Sizes pc B D)
    {f : List (BitVec 64) → S.C → S.C}
    (hf : ∀ acc c, ∃ (k : Nat) (d : Int), k < 2 * pc.polySize ∧ d.natAbs ≤ 2 ^ 62 / pc.polySize ∧
        ck.phase c = BitVec.ofInt 64 ((k : Int) * (2 ^ 64 / (2 * pc.polySize) : Nat) + d) ∧
        ck.phase (f acc c) = negacyclic acc k) :
    Setting (patched S ck pc.polySize B D (tolWeight pc.params.quadWeight * B) f)
      (patchedKey S ck pc.polySize B D (tolWeight pc.params.quadWeight * B) f) pc B D where
  msgMod := sz.msgMod
  carryMod := sz.carryMod
  bitPrecision := sz.bitPrecision
  polySize := sz.polySize
  tolerance := sz.tolerance
  sound :=
    { phase_add := lin.phase_add
      phase_neg := lin.phase_neg
      phase_mulC := lin.phase_mulC
      phase_addPt := lin.phase_addPt
      phase_encrypt := by
        intro seed mu hmu
        by_cases h : mu.toNat < 32 → EncryptOk ck B seed mu
        · obtain ⟨e, h1, h2⟩ := h hmu
          refine ⟨e, h1, ?_⟩
          show ck.phase (if _ then _ else _) = _
          rw [if_pos h]
          exact h2
        · refine ⟨0, Nat.zero_le _, ?_⟩
          show ck.phase (if _ then _ else _) = _
          rw [if_neg h, lin.phase_addPt, lin.phase_add, lin.phase_neg]
          simp
      phase_pbs := by
        intro acc c m n hl hn hp
        by_cases h : BootOk ck pc.polySize B D (tolWeight pc.params.quadWeight * B) acc c
        · obtain ⟨k, d, e, h1, h2, h3, h4, h5⟩ := h hl ⟨m, n, hn, hp⟩
          refine ⟨k, d, e, h1, h2, h3, h4, ?_⟩
          show ck.phase (if _ then _ else _) = _
          rw [if_pos h]
          exact h5
        · obtain ⟨k, d, h1, h2, h3, h4⟩ := hf acc c
          refine ⟨k, d, 0, h1, h2.trans sz.drift, Nat.zero_le _, h3, ?_⟩
          show ck.phase (if _ then _ else _) = _
          rw [if_neg h, h4]
          simp }

open Classical in
theorem patched_eval {ck : ClientKey S} {N B D T : Nat} {f : List (BitVec 64) → S.C → S.C} : ∀ {t : Term},
    (∀ u ∈ t.parts, PartOk ck N B D T u) →
    t.eval (patched S ck N B D T f) (encryptions (patchedKey S ck N B D T f)) = t.eval S (encryptions ck)
  | .input i, h => by
    have := h (.input i) (by simp [Term.parts])
    show (if _ then _ else _) = _
    exact if_pos this
  | .boot acc t, h => by
    have h1 := h (.boot acc t) (by simp [Term.parts])
    have h2 := patched_eval (f := f) (t := t) fun u hu => h u (by simp [Term.parts, hu])
    show (if _ then _ else _) = _
    rw [h2]
    exact if_pos h1
  | .add s t, h => by
    show S.add _ _ = S.add _ _
    rw [patched_eval (t := s) fun u hu => h u (by simp [Term.parts, hu]),
      patched_eval (t := t) fun u hu => h u (by simp [Term.parts, hu])]
  | .neg t, h => by
    show S.neg _ = S.neg _
    rw [patched_eval (t := t) h]
  | .mulC t k, h => by
    show S.mulC _ _ = S.mulC _ _
    rw [patched_eval (t := t) h]
  | .addPt t p, h => by
    show S.addPt _ _ = S.addPt _ _
    rw [patched_eval (t := t) h]

abbrev EvalRel (ck : ClientKey S) : Term → S.C → Prop := fun t c => c = t.eval S (encryptions ck)

theorem rel_encryptFromVec {Z : Prop} (ck : ClientKey S) (msgMod : Nat) (seed : Nat → Nat) : ∀ (i : Nat) (v : List Int),
    RelM Z (CRel (EvalRel ck)) (parmEncryptFromVec freeKey msgMod seed i v) (parmEncryptFromVec ck msgMod seed i v)
  | _, [] => RelM.pure .nil
  | i, a :: v => by
    unfold parmEncryptFromVec
    refine RelM.ite (fun _ => RelM.err _ _) fun _ => (rel_encryptFromVec ck msgMod seed (i + 1) v).bind fun c c' hc =>
      RelM.pure (.cons (WRel.ct _ ?_) hc)
    show ck.encrypt _ _ = ck.encrypt _ _
    simp [Nat.unpair_pair]

theorem pure0_mapM {α β : Type} {f : α → M β} (hf : ∀ a, Pure0 (f a)) : ∀ l : List α, Pure0 (l.mapM f)
  | [] => by rw [List.mapM_nil]; exact Pure0.pure _
  | a :: l => by
    rw [List.mapM_cons]
    exact (hf a).bind fun b => (pure0_mapM hf l).bind fun c => Pure0.pure _

theorem rel_encryptInputs {Z : Prop} (ck : ClientKey S) (msgMod : Nat) (build : Build) : ∀ (ms : List (Int × Nat)) (seed : Nat → Nat),
    RelM Z (List.Forall₂ (CRel (EvalRel ck))) (encryptInputs freeKey msgMod build seed ms)
      (encryptInputs ck msgMod build seed ms)
  | [], _ => RelM.pure .nil
  | (m, w) :: ms, seed => by
    unfold encryptInputs
    refine RelM.bind (Q := CRel (EvalRel ck)) ?_ fun x x' hx => (rel_encryptInputs ck msgMod build ms _).bind
      fun xs xs' hxs => RelM.pure (.cons hx hxs)
    unfold parmEncrypt
    refine RelM.bind (Q := (· = ·)) (RelM.same ?_) ?_
    · unfold convertToVec
      refine (Pure0.i64Op _ _).bind fun a => pure0_mapM (fun i => (Pure0.shAmt64 _ _).bind fun _ => Pure0.pure _) _
    · rintro v _ rfl
      exact rel_encryptFromVec ck msgMod seed 0 v

theorem free_encryptFromVec (msgMod : Nat) (seed : Nat → Nat) : ∀ (i : Nat) (v : List Int),
    Ensures (parmEncryptFromVec freeKey msgMod seed i v) fun x => x.length = v.length ∧
      ∃ X : Finset Term, X.card ≤ v.length ∧ CIn X x
  | _, [] => Ensures.pure ⟨rfl, ∅, by simp, CIn.nil⟩
  | i, a :: v => by
    unfold parmEncryptFromVec
    refine Ensures.ite (fun _ => Ensures.err _) fun _ => (free_encryptFromVec msgMod seed (i + 1) v).bind ?_
    rintro c ⟨h1, X, h2, h3⟩
    refine Ensures.pure ⟨by simp [h1], insert (.input (Nat.pair (seed i) (miToMu msgMod a).toNat)) X, ?_, ?_⟩
    · have := Finset.card_insert_le (.input (Nat.pair (seed i) (miToMu msgMod a).toNat) : Term) X
      rw [List.length_cons]; omega
    · refine CIn.cons ?_ (CIn.up (Finset.subset_insert _ _) h3)
      intro t e
      cases e
      simp [freeKey, Term.parts]

theorem ensures_mapM_length {α β : Type} {f : α → M β} : ∀ l : List α, Ensures (l.mapM f) fun r => r.length = l.length
  | [] => by rw [List.mapM_nil]; exact Ensures.pure rfl
  | a :: l => by
    rw [List.mapM_cons]
    exact (Ensures.trivial _).bind fun b _ => (ensures_mapM_length l).bind fun c hc => Ensures.pure (by simp [hc])

theorem free_encryptInputs (msgMod : Nat) (build : Build) : ∀ (ms : List (Int × Nat)) (seed : Nat → Nat),
    Ensures (encryptInputs freeKey msgMod build seed ms) fun xs => List.Forall₂ (fun x n => x.length ≤ n) xs (ms.map (·.2)) ∧
      ∃ X : Finset Term, X.card ≤ (ms.map (·.2)).sum ∧ LIn X xs
  | [], _ => Ensures.pure ⟨.nil, ∅, by simp, fun _ h => by cases h⟩
  | (m, w) :: ms, seed => by
    unfold encryptInputs
    refine Ensures.bind (P := fun x => x.length = w ∧ ∃ X : Finset Term, X.card ≤ w ∧ CIn X x) ?_ ?_
    · unfold parmEncrypt
      refine Ensures.bind (P := fun v => v.length = w) ?_ ?_
      · unfold convertToVec
        exact (Ensures.trivial _).bind fun _ _ => (ensures_mapM_length _).mono fun r hr => by simpa using hr
      · rintro v rfl
        exact free_encryptFromVec msgMod seed 0 v
    · rintro x ⟨h1, X, h2, h3⟩
      refine (free_encryptInputs msgMod build ms _).bind ?_
      rintro xs ⟨g1, Y, g2, g3⟩
      refine Ensures.pure ⟨.cons h1.le g1, X ∪ Y, ?_, ?_⟩
      · have := Finset.card_union_le X Y
        simp only [List.map_cons, List.sum_cons]
        omega
      · intro z hz
        rcases List.mem_cons.1 hz with rfl | hz
        · exact CIn.up Finset.subset_union_left h3
        · exact CIn.up Finset.subset_union_right (g3 z hz)

/-- something computed by the operations, with any scheme -/
structure Job where
  run : ∀ S : Scheme, List (Ctxt S.C) → M (List (Ctxt S.C))
  rel : ∀ {S S' : Scheme} {R : S.C → S'.C → Prop}, SchemeRel S S' R → ∀ {xs xs'}, List.Forall₂ (CRel R) xs xs' →
    RelM (NoRel R) (List.Forall₂ (CRel R)) (run S xs) (run S' xs')
  tr : ∀ {X xs}, LIn X xs → Tr X (run freeScheme xs) LIn

/-- what the cloud returns for encrypted inputs -/
def Job.encrypted (job : Job) (ck : ClientKey S) (msgMod : Nat) (build : Build) (seed : Nat → Nat)
    (ms : List (Int × Nat)) : M (List (Ctxt S.C)) := do
  let xs ← encryptInputs ck msgMod build seed ms
  job.run S xs

theorem Job.encrypted_rel (job : Job) (ck : ClientKey S) (msgMod : Nat) (build : Build) (seed : Nat → Nat)
    (ms : List (Int × Nat)) : RelM (NoRel (EvalRel ck)) (List.Forall₂ (CRel (EvalRel ck)))
      (job.encrypted freeKey msgMod build seed ms) (job.encrypted ck msgMod build seed ms) :=
  (rel_encryptInputs ck msgMod build ms seed).bind fun _ _ h => job.rel (evalRel S (encryptions ck)) h

/-- The samples the results are made of are as many as the words encrypted and the bootstraps counted. -/
theorem Job.samples (job : Job) {msgMod : Nat} {build : Build} {seed : Nat → Nat} {ms : List (Int × Nat)} {c : Nat}
    (hc : ∀ {xs zs s s'}, List.Forall₂ (fun (x : Ctxt Term) n => x.length ≤ n) xs (ms.map (·.2)) →
      job.run freeScheme xs s = .ok (zs, s') → s'.pbs ≤ s.pbs + c) :
    Ensures (job.encrypted freeKey msgMod build seed ms) fun zs =>
      ∃ Y : Finset Term, Y.card ≤ (ms.map (·.2)).sum + c ∧ LIn Y zs := by
  unfold Job.encrypted
  refine (free_encryptInputs msgMod build ms seed).bind ?_
  rintro xs ⟨h1, X, h2, h3⟩ s zs s' e
  obtain ⟨Y, -, g2, g3⟩ := job.tr h3 s zs s' e
  have := hc h1 e
  exact ⟨Y, by omega, g3⟩

theorem eval_unique {ck : ClientKey S} {zs : List (Ctxt Term)} {ws ws' : List (Ctxt S.C)}
    {R : Term → S.C → Prop} (h : List.Forall₂ (CRel (EvalRel ck)) zs ws) (h' : List.Forall₂ (CRel R) zs ws')
    (hR : ∀ z ∈ zs, ∀ w ∈ z, ∀ t, w.ct = .ct t → ∀ c, R t c → c = t.eval S (encryptions ck)) : ws = ws' := by
  induction h generalizing ws' with
  | nil => cases h'; rfl
  | @cons z w zs ws hw _ ih =>
    cases h' with
    | @cons _ w' _ ws' hw' h' =>
      rw [ih h' fun z hz => hR z (by simp [hz])]
      congr 1
      replace hR := hR z (by simp)
      clear ih h'
      induction hw generalizing w' with
      | nil => cases hw'; rfl
      | cons hv _ ihv =>
        cases hw' with
        | cons hv' hw' =>
          rw [ihv hw' fun v hv => hR v (by simp [hv])]
          congr 1
          cases hv with
          | ct m e => cases hv' with
            | ct m' e' => rw [e, hR _ List.mem_cons_self _ rfl _ e']
          | triv p m => cases hv'; rfl

/-- **Local correctness.**  If the promise is kept for every sample the results are made of, what holds for schemes that
always keep it holds here. -/
theorem Job.local (job : Job) {ck : ClientKey S} {pc : Cloud} {B D : Nat} (lin : Linear S ck) (sz : Sizes pc B D)
    {build : Build} {seed : Nat → Nat} {ms : List (Int × Nat)} {P : List (Ctxt S.C) → Prop}
    (hP : ∀ f, Setting (patched S ck pc.polySize B D (tolWeight pc.params.quadWeight * B) f)
        (patchedKey S ck pc.polySize B D (tolWeight pc.params.quadWeight * B) f) pc B D →
      Yields (job.encrypted (patchedKey S ck pc.polySize B D (tolWeight pc.params.quadWeight * B) f)
        pc.msgMod build seed ms) P)
    {zs : List (Ctxt Term)} {n : Nat} (hr : Returns (job.encrypted freeKey pc.msgMod build seed ms) zs n)
    (hok : ∀ z ∈ zs, ∀ w ∈ z, ∀ t, w.ct = .ct t → ∀ u ∈ t.parts,
      PartOk ck pc.polySize B D (tolWeight pc.params.quadWeight * B) u) :
    Yields (job.encrypted ck pc.msgMod build seed ms) P := by
  obtain ⟨f, hf⟩ := exists_exact lin sz.polySize
  have st := patched_setting lin sz hf
  obtain ⟨ws, k, h1, h2⟩ := hP f st
  rcases job.encrypted_rel (patchedKey S ck pc.polySize B D (tolWeight pc.params.quadWeight * B) f) pc.msgMod build seed ms with
    ⟨a, a', i, r1, r2, r3, -⟩ | ⟨r1, -⟩
  · obtain ⟨rfl, -⟩ := r1.unique hr
    obtain ⟨rfl, -⟩ := r2.unique h1
    rcases job.encrypted_rel ck pc.msgMod build seed ms with ⟨b, b', j, q1, q2, q3, -⟩ | ⟨q1, -⟩
    · obtain ⟨rfl, -⟩ := q1.unique hr
      have : b' = a' := eval_unique q3 r3 fun z hz w hw t e c hc => by
        rw [hc]
        exact patched_eval (hok z hz w hw t e)
      subst this
      exact ⟨b', j, q2, h2⟩
    · exact absurd q1 hr.not_allFail
  · exact absurd r1 hr.not_allFail

end

end Parm
