import Verif.Proof.FastSound

/-!
# The hash of the fast evaluation, and what a passed check means
-/

namespace Parm
namespace Fast
open Wt

/-- the scheme of hashes; with `c` the zero multiple of everything is the same -/
abbrev fpScheme (c : Bool) : Scheme where
  C := BitVec 64
  add a b := a + b
  neg a := - a
  mulC a k := if c = false ∧ k = 0#64 then a else a * k
  addPt a _ := a
  pbs _ a := a * (2#64 * a + 1#64) + 7770001#64

/-- the hash of a term, given those of the inputs -/
def fp (c : Bool) (ρ : Nat → BitVec 64) (t : Term) : Nat := (t.eval (fpScheme c) ρ).toNat

section
variable (c : Bool) (ρ : Nat → BitVec 64)

theorem bv_neg (v : BitVec 64) : (-v).toNat ≡ 18446744073709551615 * v.toNat [MOD 18446744073709551616] := by
  have e : -v = 18446744073709551615#64 * v := by
    rw [show (18446744073709551615#64) = -1#64 by decide, BitVec.neg_mul, BitVec.one_mul]
  rw [e, BitVec.toNat_mul]
  exact Nat.mod_modEq _ _

theorem bv_hash (v : BitVec 64) : (v * (2#64 * v + 1#64) + 7770001#64).toNat =
    (v.toNat * (2 * v.toNat + 1) + 7770001) % 18446744073709551616 := by
  rw [BitVec.toNat_add, BitVec.toNat_mul, BitVec.toNat_add, BitVec.toNat_mul, BitVec.toNat_ofNat, BitVec.toNat_ofNat, BitVec.toNat_ofNat]
  simp only [show (2 : Nat) ^ 64 = 18446744073709551616 by norm_num]
  generalize v.toNat = n
  simp [Nat.add_mod, Nat.mul_mod]

theorem fp_add (s t : Term) : fp c ρ (.add s t) = (t.eval (fpScheme c) ρ + s.eval (fpScheme c) ρ).toNat := by
  rw [BitVec.add_comm]; rfl
theorem fp_neg (t : Term) : fp c ρ (.neg t) = (-(t.eval (fpScheme c) ρ)).toNat := rfl
theorem fp_mul (t : Term) (k : BitVec 64) : fp c ρ (.mulC t k) = (if c = false ∧ k = 0#64 then t.eval (fpScheme c) ρ else t.eval (fpScheme c) ρ * k).toNat := rfl
theorem fp_boot (acc : List (BitVec 64)) (t : Term) : fp c ρ (.boot acc t) =
    (t.eval (fpScheme c) ρ * (2#64 * t.eval (fpScheme c) ρ + 1#64) + 7770001#64).toNat := rfl
theorem fp_def (t : Term) : (t.eval (fpScheme c) ρ).toNat = fp c ρ t := rfl

theorem fp_hash : Hash c (fp c ρ) where
  add s t := by
    rw [fp_add, BitVec.toNat_add, fp_def, fp_def, Nat.add_comm]
    exact Nat.mod_modEq _ _
  neg t := by
    rw [fp_neg, ← fp_def]
    exact bv_neg _
  two t := by
    rw [fp_mul, if_neg (by simp), BitVec.toNat_mul, mul_comm, fp_def]
    exact Nat.mod_modEq _ _
  three t := by
    rw [fp_mul, if_neg (by simp), BitVec.toNat_mul, mul_comm, fp_def]
    exact Nat.mod_modEq _ _
  zero t := by
    rw [fp_mul]
    cases c with
    | true =>
      rw [if_neg (by simp), if_pos rfl, BitVec.mul_zero]
      exact Nat.ModEq.refl 0
    | false =>
      rw [if_pos (by simp), if_neg (by simp)]
      rfl
  addPt t p := rfl
  boot acc t := by
    rw [hb_eq, fp_boot, bv_hash, fp_def]

end

/-- the hashes of the lawful kind -/
theorem toInt_mul (a k : BitVec 64) : a * k = k.toInt • a := by
  rw [zsmul_eq_mul, mul_comm]
  congr 1
  exact (BitVec.ofInt_toInt (x := k)).symm

theorem fp_lawful : Lawful (fpScheme true) where
  add _ _ := rfl
  neg _ := rfl
  mulC a k := by
    show (if true = false ∧ k = 0#64 then a else a * k) = k.toInt • a
    rw [if_neg (by simp)]
    exact toInt_mul a k
  addPt := ⟨0, fun a p => by simp⟩

theorem sum_sq_le (F : Finset Term) (f : Term → Nat) : ∑ a ∈ F, f a ^ 2 ≤ (∑ a ∈ F, f a) ^ 2 := by
  classical
  induction F using Finset.induction_on with
  | empty => simp
  | insert a s ha ih =>
    rw [Finset.sum_insert ha, Finset.sum_insert ha]
    nlinarith [Nat.zero_le (f a * ∑ b ∈ s, f b)]

theorem quad_of_cb {φ : Term → Nat} {t : Term} (h : CB φ t) : t.quadWeight ≤ 20 := by
  refine le_trans ?_ (h t.samples (t.samples.image φ))
  unfold Term.quadWeight
  rw [← Finset.sum_fiberwise_of_maps_to (g := φ) (t := t.samples.image φ) fun a ha => Finset.mem_image_of_mem _ ha]
  exact Finset.sum_le_sum fun k _ => sum_sq_le _ _

theorem merged_of_cb {ρ : Nat → BitVec 64} {t : Term} (h : CB (fp true ρ) t) : t.mergedWeight ≤ 20 := by
  refine Mg.merged_le (φ := fp true ρ) (fun a ha b hb e => ?_) (h t.samples _)
  unfold fp
  refine congrArg BitVec.toNat (Mg.eval_of_comb fp_lawful ρ _ a b (Nat.le_max_left _ _) (Nat.le_max_right _ _) ?_)
  have ha := Mg.isSample_of_mem ha
  have hb := Mg.isSample_of_mem hb
  refine Prod.ext (by rw [Mg.comb_of_isSample ha, Mg.comb_of_isSample hb, e]) ?_
  rcases ha with ⟨i, rfl⟩ | ⟨acc, u, rfl⟩ <;> rcases hb with ⟨j, rfl⟩ | ⟨acc', v, rfl⟩ <;> rfl

theorem inp_zero (j : Nat) : inp 0 j = [] := (rfl)
theorem inp_succ (n j : Nat) : inp (n + 1) j = force (inNum j) fun f => .s f (Nat.succ f) :: inp n (Nat.succ j) := (rfl)

/-- different samples -/
theorem ac_inp {c : Bool} {ρ : Nat → BitVec 64} : ∀ {x : Ctxt Term} (j : Nat),
    (∀ k (hk : k < x.length), ∃ i, x[k] = ⟨.ct (.input i), 32⟩ ∧ ρ i = BitVec.ofNat 64 (inNum (j + k))) →
    AC (fp c ρ) x (inp x.length j)
  | [], j, _ => ⟨.nil, fun w hw => by cases hw⟩
  | w :: x, j, h => by
    have ih := ac_inp (c := c) (ρ := ρ) (x := x) (j + 1) fun k hk => by
      have := h (k + 1) (by simpa using hk)
      rw [show j + 1 + k = j + (k + 1) by omega]
      exact this
    obtain ⟨i, e, hi⟩ := h 0 (by simp)
    simp only [List.getElem_cons_zero, Nat.add_zero] at e hi
    rw [List.length_cons, inp_succ, force_eq]
    have hf : fp c ρ (.input i) = inNum j := by
      show (ρ i).toNat = _
      rw [hi, BitVec.toNat_ofNat]
      exact Nat.mod_eq_of_lt (Nat.mod_lt _ (by norm_num))
    refine ⟨.cons ?_ ih.1, fun v hv => ?_⟩
    · rw [e]
      refine ⟨_, ⟨_, rfl, by rw [hf], rfl⟩, ?_⟩
      intro F h
      rw [look_ins0]
      unfold cls
      have : ∀ a, ((Term.input i).mult a).natAbs = if a = .input i then 1 else 0 := by
        intro a; unfold Term.mult; split_ifs <;> rfl
      simp only [this]
      rw [Finset.sum_ite_eq']
      simp only [HashW.look]
      split_ifs with h1 h2
      · omega
      · have := (Finset.mem_filter.1 h1).2
        rw [hf] at this
        omega
      · omega
      · omega
    · rcases List.mem_cons.1 hv with rfl | hv
      · rw [e]
        intro t et u hu
        cases et
        unfold Term.booted at hu
        cases hu
      · exact ih.2 v hv

/-- what a passed check means -/
theorem boots_of_passes {c : Bool} {pc : Cloud} (hm : pc.msgMod = 32) {x y : Ctxt Term} (hs : Samples (x ++ y)) (hi : Independent (x ++ y))
    (h : passes c x.length y.length = true) : ∃ ρ, Boots (CB (fp c ρ)) (ctMul freeScheme pc x y) := by
  classical
  have hnum : ∀ j (hj : j < (x ++ y).length), ∃ i, (x ++ y)[j] = ⟨.ct (.input i), 32⟩ ∧
      (fun i => BitVec.ofNat 64 (inNum ((x ++ y).findIdx fun w => decide (w.ct = .ct (.input i))))) i = BitVec.ofNat 64 (inNum j) := by
    intro j hj
    obtain ⟨hm, i, hc⟩ := hs (x ++ y)[j] (List.getElem_mem hj)
    refine ⟨i, ?_, ?_⟩
    · generalize (x ++ y)[j] = w at hm hc
      obtain ⟨c, m⟩ := w
      simp only at hm hc
      rw [hm, hc]
    · refine congrArg (fun j => BitVec.ofNat 64 (inNum j)) ?_
      have hlt : (x ++ y).findIdx (fun w => decide (w.ct = .ct (.input i))) < (x ++ y).length :=
        List.findIdx_lt_length_of_exists ⟨(x ++ y)[j], List.getElem_mem hj, by simpa using hc⟩
      have := List.findIdx_getElem (w := hlt)
      exact hi.2 _ _ hlt hj _ (by simpa using this) hc
  obtain ⟨ρ, hρ⟩ : ∃ ρ : Nat → BitVec 64, ∀ j (hj : j < (x ++ y).length), ∃ i, (x ++ y)[j] = ⟨.ct (.input i), 32⟩ ∧
      ρ i = BitVec.ofNat 64 (inNum j) := ⟨_, hnum⟩
  refine ⟨ρ, ?_⟩
  have hx : AC (fp c ρ) x (inp x.length 0) := ac_inp 0 fun k hk => by
    have := hρ k (by simp; omega)
    rw [List.getElem_append_left hk] at this
    rwa [Nat.zero_add]
  have hy : AC (fp c ρ) y (inp y.length x.length) := ac_inp x.length fun k hk => by
    have := hρ (x.length + k) (by simp; omega)
    rwa [List.getElem_append_right (by omega), getElem_congr_idx (Nat.add_sub_cancel_left _ _)] at this
  obtain ⟨fz, _, hz⟩ := fmul_sound (fp_hash c ρ) hm 6 h
  exact fun s z s' e => (((hz mulFuel x y hx hy).call s z s' e).2)

theorem seg_succ (l a n : Nat) : seg l a (n + 1) = (good l (Nat.add a n) && (good (Nat.add a n) l && seg l a n)) := (rfl)

theorem of_seg {l a : Nat} : ∀ {n : Nat}, seg l a n = true → ∀ m, a ≤ m → m < a + n → good l m = true ∧ good m l = true
  | 0, _, m, h1, h2 => by omega
  | n + 1, h, m, h1, h2 => by
    rw [seg_succ, Bool.and_eq_true, Bool.and_eq_true] at h
    by_cases e : m = a + n
    · subst e; exact ⟨h.1, h.2.1⟩
    · exact of_seg h.2.2 m h1 (by omega)

end Fast
end Parm
