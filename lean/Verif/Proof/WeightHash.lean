import Verif.Proof.DepthScheme
import Verif.Proof.Pbs
import Mathlib.Algebra.Order.BigOperators.Group.Finset
import Mathlib.Algebra.BigOperators.Ring.Finset
import Mathlib.Algebra.Order.BigOperators.Ring.Finset

/-!
# Computing bounds on quadratic weights (property C39)

Terms grow exponentially, so weights of whole products cannot be computed on them.  Instead every sample gets a number (a
hash of its term), and a word keeps the list of its samples with upper bounds of their multiplicities.  Samples with the
same number are taken for the same, which can only increase the bound.
-/

namespace Parm

variable {x y : Ctxt Term} {pc : Cloud}

/-- a word: hash, bounds of the multiplicities by sample, and a bound of the weights of all words bootstrapped so far -/
structure HashW where
  fp : Nat
  ms : List (Nat × Nat)
  mx : Nat

namespace HashW

/-- modulus of the hashes: that of the ciphertexts, so that equal combinations of samples have equal hashes -/
@[irreducible] def P : Nat := 18446744073709551616

/-- modulus of the hashes of accumulators -/
@[irreducible] def PA : Nat := 2 ^ 61 - 1

/-- add `m` to the multiplicity of the sample `i` -/
def ins (i m : Nat) : List (Nat × Nat) → List (Nat × Nat)
  | [] => [(i, m)]
  | (j, k) :: l => bif Nat.beq i j then (j, k + m) :: l else (j, k) :: ins i m l

/-- sum of two words -/
def merge : List (Nat × Nat) → List (Nat × Nat) → List (Nat × Nat)
  | [], b => b
  | (i, m) :: a, b => merge a (ins i m b)

/-- sum of squares -/
def quad : List (Nat × Nat) → Nat
  | [] => 0
  | (_, m) :: l => m * m + quad l

/-- the multiplicity of a sample -/
def look : List (Nat × Nat) → Nat → Nat
  | [], _ => 0
  | (j, k) :: l, i => if i = j then k else look l i

/-- hash of an accumulator: of one coefficient per box -/
@[irreducible] def hashAcc (acc : List (BitVec 64)) : Nat :=
  (List.range 16).foldl (fun h k => (h * 1000003 + (acc.getD (acc.length / 16 * k) 0).toNat) % PA) 7

/-- hash of a sum -/
@[irreducible] def hAdd (a b : Nat) : Nat := (a + b) % P
/-- hash of an opposite -/
@[irreducible] def hNeg (a : Nat) : Nat := (P - 1) * a % P
/-- hash of a multiple -/
@[irreducible] def hMul (a k : Nat) : Nat := a * k % P
/-- hash of a shifted word -/
@[irreducible] def hPt (a p : Nat) : Nat := (a + 12345 * p) % P
/-- hash of a bootstrapped word -/
@[irreducible] def hBoot (a l : Nat) : Nat := (a * (2 * a + 1) + 7770001 + 31337 * l) % P

end HashW
open HashW

/-- the scheme of these words -/
abbrev hashScheme : Scheme where
  C := HashW
  add s t := ⟨hAdd s.fp t.fp, merge s.ms t.ms, Nat.max s.mx t.mx⟩
  neg s := ⟨hNeg s.fp, s.ms, s.mx⟩
  mulC s k := ⟨hMul s.fp k.toNat, s.ms.map fun p => (p.1, k.toInt.natAbs * p.2), s.mx⟩
  addPt s p := ⟨hPt s.fp p.toNat, s.ms, s.mx⟩
  pbs acc s := ⟨hBoot s.fp (hashAcc acc), [(hBoot s.fp (hashAcc acc), 1)], Nat.max s.mx (quad s.ms)⟩

/-- a sample from outside with number `i` -/
def hashInput (i : Nat) : HashW := ⟨i, [(i, 1)], 0⟩

/-- the word of a term, given numbers of the samples from outside -/
def Term.hashW (ι : Nat → Nat) : Term → HashW := Term.eval hashScheme fun i => hashInput (ι i)

theorem hashRel (ι : Nat → Nat) : SchemeRel freeScheme hashScheme fun t h => h = t.hashW ι where
  add h g := by rw [h, g]; rfl
  neg h := by rw [h]; rfl
  mulC _ h := by rw [h]; rfl
  addPt _ h := by rw [h]; rfl
  pbs _ h := by rw [h]; rfl

/-! ### Soundness -/

namespace HashW

theorem look_cons (j k : Nat) (l : List (Nat × Nat)) (i : Nat) : look ((j, k) :: l) i = if i = j then k else look l i := rfl

theorem look_ins (i m h : Nat) : ∀ l, look (ins i m l) h = look l h + if h = i then m else 0
  | [] => by simp [ins, look]
  | (j, k) :: l => by
    unfold ins
    cases e : Nat.beq i j with
    | true =>
      have e : i = j := Nat.eq_of_beq_eq_true e
      subst e
      simp only [cond_true, look]
      split_ifs <;> omega
    | false =>
      have e : i ≠ j := Nat.ne_of_beq_eq_false e
      simp only [cond_false, look, look_ins i m h l]
      by_cases h1 : h = j
      · subst h1
        rw [if_pos rfl, if_pos rfl, if_neg (Ne.symm e)]
        rfl
      · rw [if_neg h1, if_neg h1]

theorem look_merge (h : Nat) : ∀ a b, look a h + look b h ≤ look (merge a b) h
  | [], b => by simp [merge, look]
  | (i, m) :: a, b => by
    have := look_merge h a (ins i m b)
    rw [look_ins] at this
    unfold merge
    refine le_trans ?_ this
    rw [look_cons]
    split_ifs with c
    · omega
    · omega

theorem look_map (c h : Nat) : ∀ l : List (Nat × Nat), look (l.map fun p => (p.1, c * p.2)) h = c * look l h
  | [] => by simp [look]
  | (j, k) :: l => by
    simp only [List.map_cons, look, look_map c h l]
    split_ifs <;> rfl

theorem sum_look (G : Finset Nat) : ∀ l : List (Nat × Nat), ∑ h ∈ G, look l h ^ 2 ≤ quad l
  | [] => by simp [look, quad]
  | (j, k) :: l => by
    have ih := sum_look G l
    have : ∀ h ∈ G, look ((j, k) :: l) h ^ 2 ≤ (if h = j then k * k else 0) + look l h ^ 2 := by
      intro h _
      rw [look_cons]
      split_ifs
      · rw [Nat.pow_two]; exact Nat.le_add_right _ _
      · rw [Nat.zero_add]
    refine (Finset.sum_le_sum this).trans ?_
    rw [Finset.sum_add_distrib]
    unfold quad
    refine Nat.add_le_add ?_ ih
    rw [Finset.sum_ite_eq']
    split_ifs
    · exact le_rfl
    · exact Nat.zero_le _

end HashW

theorem Term.mult_of_not_mem {a : Term} : ∀ {t : Term}, a ∉ t.samples → t.mult a = 0
  | .input i, h => by
    unfold Term.samples at h
    unfold Term.mult
    rw [if_neg (by simpa using h)]
  | .boot acc t, h => by
    unfold Term.samples at h
    unfold Term.mult
    rw [if_neg (by simpa using h)]
  | .add s t, h => by
    unfold Term.samples at h
    simp only [Finset.mem_union, not_or] at h
    unfold Term.mult
    rw [mult_of_not_mem h.1, mult_of_not_mem h.2]
    rfl
  | .neg t, h => by unfold Term.mult; rw [mult_of_not_mem (t := t) h]; rfl
  | .mulC t k, h => by unfold Term.mult; rw [mult_of_not_mem (t := t) h]; exact mul_zero _
  | .addPt t _, h => by unfold Term.mult; exact mult_of_not_mem (t := t) h

section
variable (ι : Nat → Nat)

theorem look_one (h : Nat) (F : Finset Term) (b : Term) {m : Term → Int} (hm : ∀ a, (m a).natAbs = if a = b then 1 else 0) :
    ∑ a ∈ F with (a.hashW ι).fp = h, (m a).natAbs ≤ look [((b.hashW ι).fp, 1)] h := by
  simp only [hm]
  rw [Finset.sum_ite_eq', look_cons]
  by_cases c : (b.hashW ι).fp = h
  · rw [if_pos c.symm]
    split_ifs <;> omega
  · rw [if_neg (by simp [c])]
    exact Nat.zero_le _

theorem hashW_eval :
    (∀ i, (Term.input i).hashW ι = hashInput (ι i)) ∧
    (∀ acc t, (Term.boot acc t).hashW ι = hashScheme.pbs acc (t.hashW ι)) ∧
    (∀ s t, (Term.add s t).hashW ι = hashScheme.add (s.hashW ι) (t.hashW ι)) ∧
    (∀ t, (Term.neg t).hashW ι = hashScheme.neg (t.hashW ι)) ∧
    (∀ t k, (Term.mulC t k).hashW ι = hashScheme.mulC (t.hashW ι) k) ∧
    (∀ t p, (Term.addPt t p).hashW ι = hashScheme.addPt (t.hashW ι) p) := by
  unfold Term.hashW
  exact ⟨fun _ => rfl, fun _ _ => rfl, fun _ _ => rfl, fun _ => rfl, fun _ _ => rfl, fun _ _ => rfl⟩

theorem hashW_input (i : Nat) : ((Term.input i).hashW ι).ms = [(((Term.input i).hashW ι).fp, 1)] := by
  rw [(hashW_eval ι).1]
  rfl
theorem hashW_boot (acc : List (BitVec 64)) (t : Term) : ((Term.boot acc t).hashW ι).ms = [(((Term.boot acc t).hashW ι).fp, 1)] := by
  have e := (hashW_eval ι).2.1 acc t
  have h : ∀ z : HashW, z = hashScheme.pbs acc (t.hashW ι) → z.ms = [(z.fp, 1)] := fun z hz => by rw [hz]
  exact h _ e
theorem hashW_add (s t : Term) : ((Term.add s t).hashW ι).ms = merge (s.hashW ι).ms (t.hashW ι).ms := by
  rw [(hashW_eval ι).2.2.1]
theorem hashW_neg (t : Term) : ((Term.neg t).hashW ι).ms = (t.hashW ι).ms := by
  rw [(hashW_eval ι).2.2.2.1]
theorem hashW_mulC (t : Term) (k : BitVec 64) :
    ((Term.mulC t k).hashW ι).ms = (t.hashW ι).ms.map fun p => (p.1, k.toInt.natAbs * p.2) := by
  rw [(hashW_eval ι).2.2.2.2.1]
theorem hashW_addPt (t : Term) (p : BitVec 64) : ((Term.addPt t p).hashW ι).ms = (t.hashW ι).ms := by
  rw [(hashW_eval ι).2.2.2.2.2]

/-- the multiplicities of the samples of a given number are bounded together -/
theorem Term.look_ge (h : Nat) (F : Finset Term) (t : Term) :
    ∑ a ∈ F with (a.hashW ι).fp = h, (t.mult a).natAbs ≤ look (t.hashW ι).ms h := by
  induction t with
  | input i =>
    rw [hashW_input]
    exact look_one ι h F (.input i) (fun a => by unfold Term.mult; split_ifs <;> rfl)
  | boot acc t =>
    rw [hashW_boot]
    exact look_one ι h F (.boot acc t) (fun a => by unfold Term.mult; split_ifs <;> rfl)
  | add s t hs ht =>
    rw [hashW_add]
    refine le_trans ?_ (look_merge h _ _)
    refine le_trans ?_ (Nat.add_le_add hs ht)
    rw [← Finset.sum_add_distrib]
    exact Finset.sum_le_sum fun a _ => by rw [Term.mult]; exact Int.natAbs_add_le _ _
  | neg t ht =>
    rw [hashW_neg]
    refine le_trans (le_of_eq ?_) ht
    exact Finset.sum_congr rfl fun a _ => by rw [Term.mult]; exact Int.natAbs_neg _
  | mulC t k ht =>
    rw [hashW_mulC, look_map]
    refine le_trans (le_of_eq ?_) (Nat.mul_le_mul_left _ ht)
    rw [Finset.mul_sum]
    exact Finset.sum_congr rfl fun a _ => by rw [Term.mult]; exact Int.natAbs_mul _ _
  | addPt t p ht =>
    rw [hashW_addPt]
    refine le_trans (le_of_eq ?_) ht
    exact Finset.sum_congr rfl fun a _ => by rw [Term.mult]

theorem Term.quadWeight_le_quad (t : Term) : t.quadWeight ≤ quad (t.hashW ι).ms := by
  unfold Term.quadWeight
  rw [← Finset.sum_fiberwise_of_maps_to (g := fun a => (a.hashW ι).fp) (t := t.samples.image (fun a => (a.hashW ι).fp))
    fun a ha => Finset.mem_image_of_mem _ ha]
  refine le_trans (Finset.sum_le_sum fun h _ => ?_) (sum_look (t.samples.image (fun a => (a.hashW ι).fp)) _)
  refine le_trans ?_ (Nat.pow_le_pow_left (Term.look_ge ι h t.samples t) 2)
  exact Finset.sum_sq_le_sq_sum_of_nonneg fun _ _ => Nat.zero_le _

/-- every word bootstrapped so far weighs at most `mx`, if weights are bounded by the multiplicities by hash -/
theorem Term.booted_le {Q : Term → Nat} (hQ : ∀ u : Term, Q u ≤ quad (u.hashW ι).ms) (t : Term) :
    ∀ u ∈ t.booted, Q u ≤ (t.hashW ι).mx := by
  induction t with
  | input i => intro u hu; unfold Term.booted at hu; cases hu
  | boot acc t ih =>
    intro u hu
    rw [(hashW_eval ι).2.1]
    unfold Term.booted at hu
    rcases List.mem_cons.1 hu with rfl | hu
    · exact le_trans (hQ u) (Nat.le_max_right _ _)
    · exact le_trans (ih u hu) (Nat.le_max_left _ _)
  | add s t hs ht =>
    intro u hu
    rw [(hashW_eval ι).2.2.1]
    unfold Term.booted at hu
    rcases List.mem_append.1 hu with hu | hu
    · exact le_trans (hs u hu) (Nat.le_max_left _ _)
    · exact le_trans (ht u hu) (Nat.le_max_right _ _)
  | neg t ih =>
    intro u hu
    rw [(hashW_eval ι).2.2.2.1]
    exact ih u hu
  | mulC t k ih =>
    intro u hu
    rw [(hashW_eval ι).2.2.2.2.1]
    exact ih u hu
  | addPt t p ih =>
    intro u hu
    rw [(hashW_eval ι).2.2.2.2.2]
    exact ih u hu

/-! ### Words of a computation -/

/-- the largest weight of a word bootstrapped for a result -/
def hashMax : Ctxt HashW → Nat
  | [] => 0
  | ⟨.ct t, _⟩ :: x => Nat.max t.mx (hashMax x)
  | ⟨.triv _, _⟩ :: x => hashMax x

theorem hashMax_ge {Q : Term → Nat} (hQ : ∀ u : Term, Q u ≤ quad (u.hashW ι).ms) {z : Ctxt Term} {z' : Ctxt HashW} (h : CRel (fun (t : Term) (d : HashW) => d = t.hashW ι) z z') :
    AllBooted (fun u => Q u ≤ hashMax z') z := by
  induction h with
  | nil => intro w hw; cases hw
  | cons h _ ih =>
    intro w hw t e u hu
    rcases List.mem_cons.1 hw with rfl | hw'
    · cases h with
      | ct m g =>
        injection e with e
        subst e g
        exact le_trans (Term.booted_le ι hQ _ u hu) (Nat.le_max_left _ _)
      | triv p m => cases e
    · cases h with
      | ct m g => exact le_trans (ih w hw' t e u hu) (Nat.le_max_right _ _)
      | triv p m => exact ih w hw' t e u hu

end

/-- `hashW` of the word with index `j` of the operands -/
@[irreducible] def hashNum (j : Nat) : Nat := (j + 5) ^ 5 * 987654321 % (2 ^ 61 - 1)

/-- `n` encrypted words numbered from `a` -/
def hashCt (a n : Nat) : Ctxt HashW := (List.range n).map fun i => ⟨.ct (hashInput (hashNum (a + i))), 32⟩

/-- the bound on weights computed sequentially -/
def hashOf (m : M (Ctxt HashW)) : Option Nat :=
  match m (St.init Sched.seq) with
  | .ok (a, _) => some (hashMax a)
  | .error _ => none

theorem boots_of_hash {Z : Prop} {ι : Nat → Nat} {Q : Term → Nat} (hQ : ∀ u : Term, Q u ≤ quad (u.hashW ι).ms) {m : M (Ctxt Term)} {m0 : M (Ctxt HashW)}
    (h : RelM Z (CRel fun (t : Term) (d : HashW) => d = t.hashW ι) m m0) {q : Nat} (hu : hashOf m0 = some q) :
    Boots (fun t => Q t ≤ q) m := by
  intro s z s' e
  unfold hashOf at hu
  rcases h with ⟨a, a', k, h1, h2, h3, _⟩ | ⟨_, h⟩
  · obtain ⟨r, _, _, hr⟩ := h2 (St.init Sched.seq)
    rw [hr] at hu
    injection hu with hu
    obtain ⟨r', _, _, hr'⟩ := h1 s
    rw [hr'] at e
    cases e
    exact hu ▸ hashMax_ge ι hQ h3
  · obtain ⟨f, hf⟩ := h (St.init Sched.seq)
    rw [hf] at hu
    cases hu

/-- the cloud for which bounds are computed -/
def hashCloud : Cloud := ⟨Params.M4C0, 32, 1, 32, [], .release⟩

theorem hashAcc_genAcc {pc : Cloud} {box : Nat} (h : AccCond pc box) (f : Nat → Int) :
    hashAcc (genNoPaddingAcc pc f) =
      (List.range 16).foldl (fun g k => (g * 1000003 + (boxAt (fun i => satU64 (f i * 2 ^ 59 / 2)) k).toNat) % PA) 7 := by
  unfold hashAcc
  rw [length_genAcc h]
  have hp := h.poly
  have hb := h.pos
  have e16 : pc.polySize / 16 = 2 * box := by rw [hp]; exact Nat.mul_div_cancel_left _ (by omega)
  refine List.foldl_ext _ _ _ fun g k hk => ?_
  have hk : k < 16 := List.mem_range.1 hk
  rw [e16, getD_genAcc h f _ (by rw [hp, Nat.mul_comm 16]; exact Nat.mul_lt_mul_of_pos_left hk (by omega))]
  have : (2 * box * k + box) / (2 * box) = k := by
    rw [Nat.mul_add_div (by omega), Nat.div_eq_of_lt (by omega), Nat.add_zero]
  rw [this]

theorem hash_agree {box : Nat} (h : AccCond pc box) : CloudAgree hashScheme pc hashCloud where
  msgMod := h.msgMod
  lut c l := by
    have h' : AccCond hashCloud 1 := ⟨rfl, rfl, rfl, Nat.one_pos⟩
    unfold evalLut5Float encryptWordTriv
    simp only [hashAcc_genAcc h, hashAcc_genAcc h', h.msgMod, h'.msgMod, h.carryMod, h'.carryMod]

/-- a numbering of the samples of independent operands -/
theorem exists_numbering {z : Ctxt Term} (hs : Samples z) (hi : Independent z) :
    ∃ ι : Nat → Nat, ∀ j (hj : j < z.length), ∃ i, z[j] = ⟨.ct (.input i), 32⟩ ∧ ι i = hashNum j := by
  classical
  refine ⟨fun i => hashNum (z.findIdx fun w => decide (w.ct = .ct (.input i))), fun j hj => ?_⟩
  obtain ⟨hm, i, hc⟩ := hs z[j] (List.getElem_mem hj)
  refine ⟨i, ?_, ?_⟩
  · generalize z[j] = w at hm hc
    obtain ⟨c, m⟩ := w
    simp only at hm hc
    rw [hm, hc]
  · refine congrArg hashNum ?_
    have hlt : z.findIdx (fun w => decide (w.ct = .ct (.input i))) < z.length :=
      List.findIdx_lt_length_of_exists ⟨z[j], List.getElem_mem hj, by simpa using hc⟩
    have := List.findIdx_getElem (w := hlt)
    exact hi.2 _ _ hlt hj _ (by simpa using this) hc

theorem crel_hash {ι : Nat → Nat} {x : Ctxt Term} (a : Nat)
    (h : ∀ j (hj : j < x.length), ∃ i, x[j] = ⟨.ct (.input i), 32⟩ ∧ ι i = hashNum (a + j)) :
    CRel (fun (t : Term) (d : HashW) => d = t.hashW ι) x (hashCt a x.length) := by
  refine List.forall₂_of_length_eq_of_get (by simp [hashCt]) fun j hj hj' => ?_
  obtain ⟨i, e, hi⟩ := h j hj
  simp only [List.get_eq_getElem, hashCt, List.getElem_map, List.getElem_range]
  rw [e, ← hi]
  exact WRel.ct 32 ((hashW_eval ι).1 i).symm

end Parm
