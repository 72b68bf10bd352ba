import Verif.SpecWeights
import Verif.Proof.Ensures
import Mathlib.Algebra.Order.BigOperators.Group.Finset
import Mathlib.Algebra.BigOperators.Ring.Finset
import Mathlib.Tactic.Linarith
import Mathlib.Tactic.Ring
import Mathlib.Tactic.Push
import Mathlib.Algebra.Order.Ring.Abs

/-!
# Linear and quadratic weights: rules

Multiplicities are handled as functions `Term → Int`; a weight is bounded by bounding the sums over
all finite sets of samples.
-/

namespace Parm
namespace Wt

/-- sum of squares at most `B` -/
def Q2 (f : Term → Int) (B : Nat) : Prop := ∀ F : Finset Term, ∑ a ∈ F, (f a).natAbs ^ 2 ≤ B

/-- sum of absolute values at most `B` -/
def L1 (f : Term → Int) (B : Nat) : Prop := ∀ F : Finset Term, ∑ a ∈ F, (f a).natAbs ≤ B

/-- no common sample -/
def Disj (f g : Term → Int) : Prop := ∀ a, f a = 0 ∨ g a = 0

/-- at most one sample, with multiplicity at most one -/
def One (f : Term → Int) : Prop := ∃ a, (f a).natAbs ≤ 1 ∧ ∀ b, b ≠ a → f b = 0

theorem Disj.symm {f g : Term → Int} (h : Disj f g) : Disj g f := fun a => (h a).symm

theorem Q2.mono {f : Term → Int} {B C : Nat} (h : Q2 f B) (hb : B ≤ C) : Q2 f C := fun F => le_trans (h F) hb

theorem L1.mono {f : Term → Int} {B C : Nat} (h : L1 f B) (hb : B ≤ C) : L1 f C := fun F => le_trans (h F) hb

theorem Q2.zero : Q2 (fun _ => 0) 0 := fun F => by simp
theorem L1.zero : L1 (fun _ => 0) 0 := fun F => by simp

theorem L1.add {f g : Term → Int} {B C : Nat} (hf : L1 f B) (hg : L1 g C) : L1 (fun a => f a + g a) (B + C) := by
  intro F
  refine le_trans ?_ (Nat.add_le_add (hf F) (hg F))
  rw [← Finset.sum_add_distrib]
  exact Finset.sum_le_sum fun a _ => Int.natAbs_add_le _ _

theorem L1.scale {f : Term → Int} {B : Nat} (k : Int) (hf : L1 f B) : L1 (fun a => k * f a) (k.natAbs * B) := by
  intro F
  simp only [Int.natAbs_mul]
  rw [← Finset.mul_sum]
  exact Nat.mul_le_mul_left _ (hf F)

theorem L1.neg {f : Term → Int} {B : Nat} (hf : L1 f B) : L1 (fun a => - f a) B := by
  intro F; simpa using hf F

theorem L1.q2 {f : Term → Int} {B : Nat} (hf : L1 f B) : Q2 f (B ^ 2) := by
  intro F
  calc ∑ a ∈ F, (f a).natAbs ^ 2 ≤ ∑ a ∈ F, (f a).natAbs * B := by
        refine Finset.sum_le_sum fun a ha => ?_
        rw [pow_two]
        refine Nat.mul_le_mul_left _ ?_
        have := hf {a}
        simpa using this
    _ = (∑ a ∈ F, (f a).natAbs) * B := by rw [Finset.sum_mul]
    _ ≤ B * B := Nat.mul_le_mul_right _ (hf F)
    _ = B ^ 2 := (pow_two B).symm

theorem Q2.scale {f : Term → Int} {B : Nat} (k : Int) (hf : Q2 f B) : Q2 (fun a => k * f a) (k.natAbs ^ 2 * B) := by
  intro F
  simp only [Int.natAbs_mul, Nat.mul_pow]
  rw [← Finset.mul_sum]
  exact Nat.mul_le_mul_left _ (hf F)

theorem Q2.disj {f g : Term → Int} {B C : Nat} (hf : Q2 f B) (hg : Q2 g C) (hd : Disj f g) :
    Q2 (fun a => f a + g a) (B + C) := by
  intro F
  refine le_trans ?_ (Nat.add_le_add (hf F) (hg F))
  rw [← Finset.sum_add_distrib]
  refine Finset.sum_le_sum fun a _ => ?_
  rcases hd a with h | h <;> simp [h]

theorem Q2.add {f g : Term → Int} {B C : Nat} (hf : Q2 f B) (hg : Q2 g C) :
    Q2 (fun a => f a + g a) (2 * B + 2 * C) := by
  intro F
  refine le_trans ?_ (Nat.add_le_add (Nat.mul_le_mul_left 2 (hf F)) (Nat.mul_le_mul_left 2 (hg F)))
  rw [Finset.mul_sum, Finset.mul_sum, ← Finset.sum_add_distrib]
  refine Finset.sum_le_sum fun a _ => ?_
  have h1 : ((f a + g a).natAbs ^ 2 : Nat) = ((f a + g a) ^ 2 : Int) := by simp [sq_abs]
  have h2 : ((f a).natAbs ^ 2 : Nat) = ((f a) ^ 2 : Int) := by simp [sq_abs]
  have h3 : ((g a).natAbs ^ 2 : Nat) = ((g a) ^ 2 : Int) := by simp [sq_abs]
  zify
  push_cast at h1 h2 h3
  rw [h1, h2, h3]
  nlinarith [sq_nonneg (f a - g a)]

theorem One.q2 {f : Term → Int} (h : One f) : Q2 f 1 := by
  obtain ⟨a, ha, hb⟩ := h
  intro F
  have : ∑ b ∈ F, (f b).natAbs ^ 2 ≤ ∑ b ∈ F, if b = a then 1 else 0 := by
    refine Finset.sum_le_sum fun b _ => ?_
    by_cases hba : b = a
    · subst hba; simp; exact ha
    · simp [hb b hba]
  refine le_trans this ?_
  simp [Finset.sum_ite_eq']
  split <;> omega

theorem One.l1 {f : Term → Int} (h : One f) : L1 f 1 := by
  obtain ⟨a, ha, hb⟩ := h
  intro F
  have : ∑ b ∈ F, (f b).natAbs ≤ ∑ b ∈ F, if b = a then 1 else 0 := by
    refine Finset.sum_le_sum fun b _ => ?_
    by_cases hba : b = a
    · subst hba; simp; exact ha
    · simp [hb b hba]
  refine le_trans this ?_
  simp [Finset.sum_ite_eq']
  split <;> omega

theorem One.zero : One (fun _ => 0) := ⟨.input 0, by simp, by simp⟩
theorem One.neg {f : Term → Int} (h : One f) : One (fun a => - f a) := by
  obtain ⟨a, ha, hb⟩ := h
  exact ⟨a, by simpa using ha, fun b h => by simp [hb b h]⟩

theorem Disj.add {f g h : Term → Int} (h1 : Disj f h) (h2 : Disj g h) : Disj (fun a => f a + g a) h := by
  intro a
  rcases h1 a with h | h
  · rcases h2 a with h' | h'
    · left; simp [h, h']
    · right; exact h'
  · right; exact h

theorem Disj.scale {f g : Term → Int} (k : Int) (h : Disj f g) : Disj (fun a => k * f a) g := by
  intro a
  rcases h a with h | h
  · left; simp [h]
  · right; exact h

theorem Disj.zero {g : Term → Int} : Disj (fun _ => 0) g := fun _ => .inl rfl

theorem _root_.Parm.Term.quadWeight_le {t : Term} {B : Nat} (h : Q2 t.mult B) : t.quadWeight ≤ B := h _
theorem _root_.Parm.Term.linWeight_le {t : Term} {B : Nat} (h : L1 t.mult B) : t.linWeight ≤ B := h _

/-- multiplicity of a sample in a word; none in a trivial word -/
def wm (w : Word Term) (a : Term) : Int :=
  match w.ct with
  | .ct t => t.mult a
  | .triv _ => 0

theorem wm_ct {w : Word Term} {t : Term} (h : w.ct = .ct t) : wm w = t.mult := by
  funext a; simp [wm, h]

theorem wm_triv {w : Word Term} (h : w.isTriv = true) : wm w = fun _ => 0 := by
  funext a
  unfold wm
  unfold Word.isTriv at h
  split at h
  · rename_i pt e; rw [e]
  · cases h

theorem isTriv_or {C : Type} (w : Word C) : w.isTriv = true ∨ ∃ t, w.ct = .ct t := by
  rcases h : w.ct with t | p
  · exact .inr ⟨t, rfl⟩
  · left; simp [Word.isTriv, h]

theorem not_triv_of_ct {C : Type} {w : Word C} {t : C} (h : w.ct = .ct t) : w.isTriv = false := by
  simp [Word.isTriv, h]

@[simp] theorem wm_add (x y : Word Term) (a : Term) : wm (Word.add freeScheme x y) a = wm x a + wm y a := by
  rcases x with ⟨_ | _, m⟩ <;> rcases y with ⟨_ | _, m'⟩ <;> simp [Word.add, wm, freeScheme, Term.mult]

@[simp] theorem wm_opp (x : Word Term) (a : Term) : wm (Word.opp freeScheme x) a = - wm x a := by
  rcases x with ⟨_ | _, m⟩ <;> simp [Word.opp, wm, freeScheme, Term.mult]

@[simp] theorem wm_sub (x y : Word Term) (a : Term) : wm (Word.sub freeScheme x y) a = wm x a - wm y a := by
  rw [Word.sub, wm_add, wm_opp]; omega

@[simp] theorem wm_addHalf (x : Word Term) (a : Term) : wm (Word.addHalf freeScheme x) a = wm x a := by
  rcases x with ⟨_ | _, m⟩ <;> simp [Word.addHalf, wm, freeScheme, Term.mult]

theorem wm_mulConst (x : Word Term) (k : Int) (hk : k.natAbs < 2 ^ 31) (a : Term) :
    wm (Word.mulConst freeScheme x k) a = k * wm x a := by
  have e : wrapI32 (k.natAbs : Int) = k.natAbs := by
    unfold wrapI32; rw [Int.bmod]; omega
  have e2 : (BitVec.ofInt 64 (k.natAbs : Int)).toInt = k.natAbs := by
    rw [BitVec.toInt_ofInt]
    simp only [Int.bmod]
    omega
  rcases x with ⟨t | p, m⟩
  · by_cases h : k < 0
    · have e3 : (k.natAbs : Int) = -k := by omega
      simp only [Word.mulConst, h, if_true]
      rw [wm_opp]
      simp only [wm, freeScheme, Term.mult, e]
      rw [e2, e3]; ring
    · have e3 : (k.natAbs : Int) = k := by omega
      simp only [Word.mulConst, h, if_false]
      simp only [wm, freeScheme, Term.mult, e]
      rw [e2, e3]
  · by_cases h : k < 0
    · simp only [Word.mulConst, h, if_true]; rw [wm_opp]; simp [wm]
    · simp [Word.mulConst, h]; simp [wm]

@[simp] theorem wm_encryptWordTriv (pc : Cloud) (k : Int) (a : Term) : wm (encryptWordTriv Term pc k) a = 0 := rfl

/-- everything bootstrapped on the way to a word satisfies `P` -/
def Hist (P : Term → Prop) (w : Word Term) : Prop := ∀ t, w.ct = .ct t → ∀ u ∈ t.booted, P u

section
variable {P : Term → Prop} {x y : Word Term}

theorem Hist.triv (h : x.isTriv = true) : Hist P x := by
  intro t e; rw [not_triv_of_ct e] at h; cases h

theorem Hist.add (hx : Hist P x) (hy : Hist P y) : Hist P (Word.add freeScheme x y) := by
  rcases x with ⟨s | _, m⟩ <;> rcases y with ⟨t | _, m'⟩ <;> intro z e <;>
    simp only [Word.add, reduceCtorEq] at e
  · injection e with e; subst e
    intro u hu
    simp only [freeScheme, Term.booted, List.mem_append] at hu
    exact hu.elim (hx s rfl u) (hy t rfl u)
  · injection e with e; subst e
    intro u hu
    exact hx s rfl u hu
  · injection e with e; subst e
    intro u hu
    exact hy t rfl u hu

theorem Hist.opp (hx : Hist P x) : Hist P (Word.opp freeScheme x) := by
  rcases x with ⟨s | _, m⟩ <;> intro z e <;> simp only [Word.opp, reduceCtorEq] at e
  injection e with e; subst e
  intro u hu
  exact hx s rfl u hu

theorem Hist.addHalf (hx : Hist P x) : Hist P (Word.addHalf freeScheme x) := by
  rcases x with ⟨s | _, m⟩ <;> intro z e <;> simp only [Word.addHalf, reduceCtorEq] at e
  injection e with e; subst e
  intro u hu
  exact hx s rfl u hu

theorem Hist.sub (hx : Hist P x) (hy : Hist P y) : Hist P (Word.sub freeScheme x y) := hx.add hy.opp

theorem Hist.mulConst (k : Int) (hx : Hist P x) : Hist P (Word.mulConst freeScheme x k) := by
  rcases x with ⟨s | _, m⟩
  · have h1 : Hist P ⟨.ct (.mulC s (BitVec.ofInt 64 (wrapI32 (k.natAbs : Int)))), m⟩ := by
      intro z e
      injection e with e; subst e
      intro u hu
      exact hx s rfl u hu
    by_cases hk : k < 0
    · simp only [Word.mulConst, hk, if_true]; exact h1.opp
    · simp only [Word.mulConst, hk, if_false]; exact h1
  · apply Hist.triv
    by_cases hk : k < 0 <;> simp [Word.mulConst, hk, Word.opp, Word.isTriv]

theorem Hist.encryptWordTriv (pc : Cloud) (k : Int) : Hist P (Parm.encryptWordTriv Term pc k) := Hist.triv rfl

end

/-- a property kept by the linear operations -/
structure Lin (F : Term → Prop) : Prop where
  add : ∀ {s t}, F s → F t → F (.add s t)
  neg : ∀ {t}, F t → F (.neg t)
  mulC : ∀ {t} k, F t → F (.mulC t k)
  addPt : ∀ {t} p, F t → F (.addPt t p)

/-- the word is trivial or its term has the property -/
def Dom (F : Term → Prop) (w : Word Term) : Prop := ∀ t, w.ct = .ct t → F t

section
variable {F : Term → Prop} {x y : Word Term}

theorem Dom.triv (h : x.isTriv = true) : Dom F x := by
  intro t e; rw [not_triv_of_ct e] at h; cases h

theorem Dom.mono {G : Term → Prop} (hx : Dom F x) (h : ∀ t, F t → G t) : Dom G x := fun t e => h t (hx t e)

theorem Dom.add (l : Lin F) (hx : Dom F x) (hy : Dom F y) : Dom F (Word.add freeScheme x y) := by
  rcases x with ⟨s | _, m⟩ <;> rcases y with ⟨t | _, m'⟩ <;> intro z e <;> simp only [Word.add, reduceCtorEq] at e
  · injection e with e; subst e; exact l.add (hx s rfl) (hy t rfl)
  · injection e with e; subst e; exact l.addPt _ (hx s rfl)
  · injection e with e; subst e; exact l.addPt _ (hy t rfl)

theorem Dom.opp (l : Lin F) (hx : Dom F x) : Dom F (Word.opp freeScheme x) := by
  rcases x with ⟨s | _, m⟩ <;> intro z e <;> simp only [Word.opp, reduceCtorEq] at e
  injection e with e; subst e; exact l.neg (hx s rfl)

theorem Dom.addHalf (l : Lin F) (hx : Dom F x) : Dom F (Word.addHalf freeScheme x) := by
  rcases x with ⟨s | _, m⟩ <;> intro z e <;> simp only [Word.addHalf, reduceCtorEq] at e
  injection e with e; subst e; exact l.addPt _ (hx s rfl)

theorem Dom.sub (l : Lin F) (hx : Dom F x) (hy : Dom F y) : Dom F (Word.sub freeScheme x y) := hx.add l (hy.opp l)

theorem Dom.mulConst (l : Lin F) (k : Int) (hx : Dom F x) : Dom F (Word.mulConst freeScheme x k) := by
  rcases x with ⟨s | _, m⟩
  · have h1 : Dom F ⟨.ct (.mulC s (BitVec.ofInt 64 (wrapI32 (k.natAbs : Int)))), m⟩ := by
      intro z e
      injection e with e; subst e; exact l.mulC _ (hx s rfl)
    by_cases hk : k < 0
    · simp only [Word.mulConst, hk, if_true]; exact h1.opp l
    · simp only [Word.mulConst, hk, if_false]; exact h1
  · intro z e
    simp only [Word.mulConst] at e
    split at e <;> cases e

end

theorem lin_hist (P : Term → Prop) : Lin fun t => ∀ u ∈ t.booted, P u where
  add h g u hu := by
    simp only [Term.booted, List.mem_append] at hu
    exact hu.elim (h u) (g u)
  neg h := h
  mulC _ h := h
  addPt _ h := h

/-- the result of a lookup: a bootstrap of an encrypted word, or trivial for a trivial word -/
def Lut (acc : List (BitVec 64)) (w z : Word Term) : Prop :=
  (∃ t, w.ct = .ct t ∧ z.ct = .ct (.boot acc t)) ∨ (w.isTriv = true ∧ z.isTriv = true)

theorem Lut.hist {acc : List (BitVec 64)} {w z : Word Term} {P : Term → Prop} (h : Lut acc w z) (hw : Hist P w)
    (hp : ∀ t, w.ct = .ct t → P t) : Hist P z := by
  rcases h with ⟨t, e1, e2⟩ | ⟨_, h⟩
  · intro s e
    rw [e2] at e
    injection e with e
    subst e
    intro u hu
    simp only [Term.booted, List.mem_cons] at hu
    rcases hu with rfl | hu
    · exact hp _ e1
    · exact hw t e1 u hu
  · exact Hist.triv h

theorem mult_boot (acc : List (BitVec 64)) (t : Term) : One (Term.boot acc t).mult := by
  refine ⟨.boot acc t, by simp [Term.mult], fun b hb => by simp [Term.mult, hb]⟩

theorem Lut.one {acc : List (BitVec 64)} {w z : Word Term} (h : Lut acc w z) : One (wm z) := by
  rcases h with ⟨t, _, e2⟩ | ⟨_, h⟩
  · rw [wm_ct e2]; exact mult_boot _ _
  · rw [wm_triv h]; exact One.zero

/-- the accumulator of a table -/
def accOf (pc : Cloud) (lut : List Int) : List (BitVec 64) := genNoPaddingAcc pc (fun x => lut.getD x 0)

theorem lutFloat {pc : Cloud} {c : Word Term} {lut : List Int} :
    Ensures (evalLut5Float freeScheme pc c lut) (Lut (accOf pc lut) c) := by
  rcases hc : c.ct with t | p
  · unfold evalLut5Float
    rw [hc]
    refine (Ensures.trivial _).bind fun _ _ => ?_
    refine Ensures.ite (fun _ => Ensures.panic _) fun _ => Ensures.pure ?_
    exact .inl ⟨t, hc, rfl⟩
  · unfold evalLut5Float
    rw [hc]
    have ht : c.isTriv = true := by simp [Word.isTriv, hc]
    refine (Ensures.trivial _).bind fun fm _ => ?_
    refine Ensures.ite (fun _ => Ensures.pure (.inr ⟨ht, ?_⟩)) fun _ => Ensures.pure (.inr ⟨ht, rfl⟩)
    rfl

/-- table of integers, in half units -/
def lut2 (lut : List Nat) : List Int := lut.map fun (v : Nat) => 2 * (u64ToF64 v : Int)

theorem lutUint {pc : Cloud} {c : Word Term} {lut : List Nat} :
    Ensures (evalLut5Uint freeScheme pc c lut) (Lut (accOf pc (lut2 lut)) c) := lutFloat

end Wt
end Parm
