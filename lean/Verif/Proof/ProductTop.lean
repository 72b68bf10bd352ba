import Verif.Props.Schedule
import Verif.Props.Addition
import Verif.Proof.Ensures
import Verif.Proof.AnyOps

/-! Products of which one factor has 32 encrypted words: the upper half product has 33 words, of
which the highest is encrypted, whatever the length of the other factor. -/

namespace Parm

/-- `k` encrypted words and `16 - k` trivial zeros above them -/
def unitPad (k : Nat) : Ctxt unitScheme.C :=
  unitCt k ++ List.replicate (16 - k) (encryptWordTriv unitScheme.C unitCloud 0)

/-- the computation returns at least 33 words, of which the highest is encrypted -/
def topEnc (m : M (Ctxt unitScheme.C)) : Bool :=
  match m (St.init Sched.seq) with
  | .ok (a, _) => Nat.ble 33 a.length && (a.getLast?.map fun w => !w.isTriv).getD false
  | .error _ => false

/-- at least `n` words, of which the highest is encrypted -/
def TopEnc {C : Type} (n : Nat) (z : Ctxt C) : Prop := n ≤ z.length ∧ ∃ w, z.getLast? = some w ∧ w.isTriv = false

theorem topEnc_ensures {m : M (Ctxt unitScheme.C)} (h : topEnc m = true) {P : Ctxt unitScheme.C → Prop} (hy : Yields m P) :
    Ensures m (TopEnc 33) := by
  obtain ⟨a, n, ha, -⟩ := hy
  have : TopEnc 33 a := by
    obtain ⟨r, rep, -, e⟩ := ha (St.init Sched.seq)
    unfold topEnc at h
    rw [e] at h
    simp only [Bool.and_eq_true, Nat.ble_eq] at h
    refine ⟨h.1, ?_⟩
    have h2 := h.2
    cases e : a.getLast? with
    | none => rw [e] at h2; simp at h2
    | some w => exact ⟨w, rfl, by rw [e] at h2; simpa using h2⟩
  intro s z s' e
  obtain ⟨r, rep, -, e'⟩ := ha s
  rw [e'] at e
  cases e
  exact this

variable {S : Scheme} {pc : Cloud}

theorem TopEnc.stripped {n : Nat} {z : Ctxt S.C} (h : TopEnc n z) : StrippedLen z z.length := by
  obtain ⟨_, w, h1, h2⟩ := h
  refine ⟨le_refl _, fun i hi h => by omega, fun h0 => ⟨by omega, ?_⟩⟩
  rw [List.getLast?_eq_getElem?] at h1
  obtain ⟨_, h3⟩ := List.getElem?_eq_some_iff.1 h1
  rw [h3]
  rw [not_trivialZero_iff]
  revert h2
  unfold Word.isTriv Word.isTrivZero
  cases w.ct <;> simp

/-- a sum is not shorter than an operand with an encrypted top word -/
theorem length_add_top (h : Mods pc) {n : Nat} {u v : Ctxt S.C} (hu : Mod32 u) (ht : TopEnc n u) :
    Ensures (ctAdd S pc u v) fun z => u.length ≤ z.length := by
  have h0 : u ≠ [] := by
    obtain ⟨_, w, h1, _⟩ := ht
    rintro rfl
    simp at h1
  have hu0 : ¬ ∀ w ∈ u, TrivialZero w := by
    intro hc
    obtain ⟨h1, h2, h3⟩ := ht.stripped
    obtain ⟨h4, h5⟩ := h3 (List.length_pos_iff.2 h0)
    exact h5 (hc _ (List.getElem_mem h4))
  have key : Yields (ctAdd S pc u v) fun z => u.length ≤ z.length := by
    by_cases hv0 : ∀ w ∈ v, TrivialZero w
    · exact ⟨u, 0, C08_right_zero hu0 hv0 true true, le_refl _⟩
    · refine (addSub_any h.msg h.carry true true hu (rzero_ne_length hu0) (rzero_ne_length hv0)).yields.call.mono ?_
      rintro z ⟨n, _, hl, _⟩
      rw [strip_eq ht.stripped] at hl
      omega
  obtain ⟨a, n, ha, hl⟩ := key
  intro s z s' e
  obtain ⟨r, rep, -, e'⟩ := ha s
  rw [e'] at e
  cases e
  exact hl

theorem Yields.both {α : Type} {m : M α} {P Q : α → Prop} (h : Yields m P) (hq : Ensures m Q) :
    Ensures m fun a => P a ∧ Q a := by
  obtain ⟨a, n, ha, hp⟩ := h
  intro s z s' e
  refine ⟨?_, hq s z s' e⟩
  obtain ⟨r, rep, -, e'⟩ := ha s
  rw [e'] at e
  cases e
  exact hp

/-- the divided product, if the upper half product has 33 words and an encrypted top word -/
theorem length_karatsuba_top (h : Mods pc) {f : Ctxt S.C → Ctxt S.C → M (Ctxt S.C)} {x y : Ctxt S.C}
    (hl : x.length = 32) (ha : Ensures (f (x.drop 16) (y.drop 16)) fun a => Mod32 a ∧ TopEnc 33 a)
    (hb : Ensures (f (x.take 16) (y.take 16)) Mod32) :
    Ensures (mulKaratsuba S pc f x y) fun z => 65 ≤ z.length := by
  unfold mulKaratsuba
  rw [show (x.length + 1) / 2 = 16 by omega]
  refine Ensures.ite (fun _ => Ensures.panic _) fun _ => ?_
  refine Ensures.bind (P := fun r => (Mod32 r.1.1 ∧ TopEnc 33 r.1.1) ∧ Mod32 r.1.2.1) ?_ ?_
  · refine (Ensures.par2 (P := fun r => (Mod32 r.1 ∧ TopEnc 33 r.1) ∧ Mod32 r.2.1) (Q := fun _ => True) ?_
      (Ensures.trivial _)).mono fun r hr => hr.1
    refine Ensures.bind (Ensures.par2 ha hb) fun r hr => ?_
    refine Ensures.bind (Ensures.trivial _) fun p _ => ?_
    exact Ensures.pure hr
  · rintro ⟨⟨a, b, nn⟩, c⟩ ⟨⟨h1, h2⟩, h3⟩
    dsimp only at h1 h2 h3 ⊢
    refine Ensures.bind (Ensures.trivial _) fun p _ => ?_
    have top : ∀ l : Ctxt S.C, TopEnc 33 (l ++ a) := fun l => by
      obtain ⟨t1, w, t2, t3⟩ := h2
      exact ⟨by rw [List.length_append]; omega, w, by rw [List.getLast?_append, t2]; rfl, t3⟩
    have len : 33 ≤ a.length := h2.1
    refine Ensures.ite (fun hb => ?_) fun _ => ?_
    · refine (length_add_top h (n := 33) ?_ (top b)).mono fun z hz => ?_
      · intro w hw
        rcases List.mem_append.1 hw with hw | hw
        · exact h3 w hw
        · exact h1 w hw
      · rw [List.length_append] at hz
        omega
    · refine Ensures.bind (Ensures.trivial _) fun q _ => ?_
      refine (length_add_top h (n := 33) ?_ (top _)).mono fun z hz => ?_
      · intro w hw
        rcases List.mem_append.1 hw with hw | hw
        · rw [List.eq_of_mem_replicate hw]; exact h.triv _ _
        · exact h1 w hw
      · rw [List.length_append, length_trivCt] at hz
        omega

end Parm
