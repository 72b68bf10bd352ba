import Verif.SpecChains
import Mathlib.Tactic.Ring
import Mathlib.Tactic.LinearCombination

/-!
# Chains modulo `2^16` (property C59)

Shifts are unbounded, but modulo `2^16` only 17 powers of two are left.
-/

namespace Parm

/-- the powers of two modulo `2^16` -/
def chPow : List Nat := [1, 2, 4, 8, 16, 32, 64, 128, 256, 512, 1024, 2048, 4096, 8192, 16384, 32768, 0]

/-- bit `v` of the set `t` -/
def chBit (t v : Nat) : Bool := Nat.beq (Nat.land (Nat.shiftRight t v) 1) 1

/-- neither `v` nor `-v` is a residue of an element of `t` (below 4096) -/
def chOk (t v : Nat) : Bool :=
  cond (Nat.blt v 4096) (!chBit t v) (cond (Nat.blt 61440 v) (!chBit t (65536 - v)) true)

/-- all `x ± 2^s·y` satisfy `f` -/
def chPair (f : Nat → Bool) (x y : Nat) : Bool :=
  chPow.all fun p => f ((x + y * p) % 65536) && f ((x + (65536 - y) * p) % 65536)

/-- all values one addition away from `vs` satisfy `f` -/
def chNext (f : Nat → Bool) (vs : List Nat) : Bool := vs.all fun x => vs.all fun y => chPair f x y

/-- all values one addition away that use `h` are not in `t` -/
def chLast (t : Nat) (h : Nat) (vs : List Nat) : Bool :=
  ((h :: vs).all fun x => chPair (chOk t) x h) && vs.all fun y => chPair (chOk t) h y

/-- all values one or two additions away from 1 and `v1` are not in `t` -/
def chDeep (t : Nat) (v1 : Nat) : Bool := chNext (fun v2 => chOk t v2 && chLast t v2 [v1, 1]) [v1, 1]

/-- `n` is the residue of `v` or `-v` -/
def Resid (v : Int) (n : Nat) : Prop := n < 65536 ∧ ((65536 : Int) ∣ v - n ∨ (65536 : Int) ∣ v + n)

/-- `m` is one addition away from `a` and `b` -/
def OneAway (a b m : Nat) : Prop := ∃ p ∈ chPow, m = (a + b * p) % 65536 ∨ m = (a + (65536 - b) * p) % 65536

theorem exists_pow (s : Nat) : ∃ p ∈ chPow, (65536 : Int) ∣ 2 ^ s - p := by
  by_cases h : s < 16
  · have key : ∀ s : Fin 16, 2 ^ s.1 ∈ chPow := by decide
    exact ⟨2 ^ s, key ⟨s, h⟩, by simp⟩
  · refine ⟨0, by decide, ?_⟩
    obtain ⟨t, rfl⟩ := Nat.exists_eq_add_of_le (Nat.le_of_not_lt h)
    exact ⟨2 ^ t, by rw [pow_add]; push_cast; ring⟩

theorem Resid.step {x y ε δ : Int} {a b : Nat} (hx : Resid x a) (hy : Resid y b) (hε : ε = 1 ∨ ε = -1)
    (hδ : δ = 1 ∨ δ = -1) (s : Nat) : ∃ m, OneAway a b m ∧ Resid (ε * x + δ * (y * 2 ^ s)) m := by
  obtain ⟨p, hp, q, hq⟩ := exists_pow s
  have e2 : (2 : Int) ^ s = 65536 * q + p := by linear_combination hq
  have hb : b ≤ 65536 := hy.1.le
  obtain ⟨σ, hσ, i, hi⟩ : ∃ σ : Int, (σ = 1 ∨ σ = -1) ∧ ∃ i, x = σ * a + 65536 * i := by
    rcases hx.2 with ⟨i, hi⟩ | ⟨i, hi⟩
    · exact ⟨1, .inl rfl, i, by linear_combination hi⟩
    · exact ⟨-1, .inr rfl, i, by linear_combination hi⟩
  obtain ⟨τ, hτ, j, hj⟩ : ∃ τ : Int, (τ = 1 ∨ τ = -1) ∧ ∃ i, y = τ * b + 65536 * i := by
    rcases hy.2 with ⟨i, hi⟩ | ⟨i, hi⟩
    · exact ⟨1, .inl rfl, i, by linear_combination hi⟩
    · exact ⟨-1, .inr rfl, i, by linear_combination hi⟩
  have hm : ∀ n : Nat, ∃ r : Int, ((n % 65536 : Nat) : Int) = n + 65536 * r := fun n =>
    ⟨-(n / 65536 : Nat), by have := Nat.mod_add_div n 65536; omega⟩
  have h1 : ε * σ = 1 ∨ ε * σ = -1 := by rcases hε with rfl | rfl <;> rcases hσ with rfl | rfl <;> simp
  have h2 : δ * τ = 1 ∨ δ * τ = -1 := by rcases hδ with rfl | rfl <;> rcases hτ with rfl | rfl <;> simp
  have e : ε * x + δ * (y * 2 ^ s) = ε * σ * a + δ * τ * (b * p) +
      65536 * (ε * i + δ * τ * b * q + δ * j * (65536 * q + p)) := by rw [hi, hj, e2]; ring
  rw [e]
  generalize ε * i + δ * τ * b * q + δ * j * (65536 * q + p) = z
  have hlt : ∀ n, n % 65536 < 65536 := fun n => Nat.mod_lt _ (by omega)
  obtain ⟨r1, hr1⟩ := hm (a + b * p)
  obtain ⟨r2, hr2⟩ := hm (a + (65536 - b) * p)
  have e3 : ((a + (65536 - b) * p : Nat) : Int) = a - b * p + 65536 * p := by
    push_cast [Nat.cast_sub hb]; ring
  have e4 : ((a + b * p : Nat) : Int) = a + b * p := by push_cast; ring
  rw [e4] at hr1
  rw [e3] at hr2
  rcases h1 with h1 | h1 <;> rcases h2 with h2 | h2 <;> rw [h1, h2]
  · exact ⟨_, ⟨p, hp, .inl rfl⟩, hlt _, .inl ⟨z - r1, by rw [hr1]; ring⟩⟩
  · exact ⟨_, ⟨p, hp, .inr rfl⟩, hlt _, .inl ⟨z - r2 - p, by rw [hr2]; ring⟩⟩
  · exact ⟨_, ⟨p, hp, .inr rfl⟩, hlt _, .inr ⟨z + r2 + p, by rw [hr2]; ring⟩⟩
  · exact ⟨_, ⟨p, hp, .inl rfl⟩, hlt _, .inr ⟨z + r1, by rw [hr1]; ring⟩⟩

theorem chPair_of {f : Nat → Bool} {a b m : Nat} (h : chPair f a b = true) (hm : OneAway a b m) : f m = true := by
  obtain ⟨p, hp, hm⟩ := hm
  have := List.all_eq_true.1 h p hp
  rw [Bool.and_eq_true] at this
  rcases hm with rfl | rfl
  · exact this.1
  · exact this.2

theorem chNext_of {f : Nat → Bool} {ns : List Nat} (h : chNext f ns = true) {a b m : Nat} (ha : a ∈ ns) (hb : b ∈ ns)
    (hm : OneAway a b m) : f m = true :=
  chPair_of (List.all_eq_true.1 (List.all_eq_true.1 h a ha) b hb) hm

theorem chOk_of {t k n : Nat} (hk : 0 < k) (hk' : k < 4096) (ht : chBit t k = true) (h : Resid k n) : chOk t n = false := by
  obtain ⟨hn, h⟩ := h
  unfold chOk
  rcases h with h | h
  · have : n = k := by omega
    subst this
    rw [show Nat.blt n 4096 = true from Nat.blt_eq.mpr hk', cond_true, ht]
    rfl
  · have : n = 65536 - k := by omega
    subst this
    rw [show Nat.blt (65536 - k) 4096 = false from by rw [Bool.eq_false_iff]; intro c; have := Nat.blt_eq.mp c; omega, cond_false,
      show Nat.blt 61440 (65536 - k) = true from Nat.blt_eq.mpr (by omega), cond_true,
      show 65536 - (65536 - k) = k by omega, ht]
    rfl

/-- a chain is covered by residues -/
abbrev Cover (vs : List Int) (ns : List Nat) : Prop := List.Forall₂ Resid vs ns

theorem Cover.mem {vs : List Int} {ns : List Nat} (h : Cover vs ns) {x : Int} (hx : x ∈ vs) : ∃ n ∈ ns, Resid x n := by
  induction h with
  | nil => cases hx
  | cons hr _ ih =>
    rcases List.mem_cons.1 hx with rfl | hx
    · exact ⟨_, by simp, hr⟩
    · obtain ⟨n, hn, h⟩ := ih hx
      exact ⟨n, by simp [hn], h⟩

theorem Cover.one : Cover [1] [1] := .cons ⟨by norm_num, .inl (by norm_num)⟩ .nil

theorem Chain.tail {v : Int} {vs : List Int} (h : Chain (v :: vs)) (hv : vs ≠ []) : Chain vs ∧
    ∀ ns, Cover vs ns → ∃ a ∈ ns, ∃ b ∈ ns, ∃ m, OneAway a b m ∧ Resid v m := by
  cases h with
  | one => exact absurd rfl hv
  | step h hx hy hε hδ s =>
    refine ⟨h, fun ns hc => ?_⟩
    obtain ⟨a, ha, ha'⟩ := hc.mem hx
    obtain ⟨b, hb, hb'⟩ := hc.mem hy
    obtain ⟨m, h1, h2⟩ := ha'.step hb' hε hδ s
    exact ⟨a, ha, b, hb, m, h1, h2⟩

theorem Chain.single {v : Int} (h : Chain [v]) : v = 1 := by
  cases h with
  | one => rfl
  | step h hx => cases hx

/-- every value of a chain ends a chain that is not longer -/
theorem Chain.suffix {vs : List Int} (h : Chain vs) {k : Int} (hk : k ∈ vs) : ∃ us, Chain (k :: us) ∧ us.length < vs.length := by
  induction h with
  | one =>
    rw [List.mem_singleton] at hk
    subst hk
    exact ⟨[], .one, by simp⟩
  | @step vs x y ε δ h hx hy hε hδ s ih =>
    rcases List.mem_cons.1 hk with rfl | hk
    · exact ⟨vs, .step h hx hy hε hδ s, by simp⟩
    · obtain ⟨us, h1, h2⟩ := ih hk
      exact ⟨us, h1, by rw [List.length_cons]; omega⟩

theorem Resid.neg {v : Int} {n : Nat} (h : Resid (-v) n) : Resid v n := by
  obtain ⟨h1, h2⟩ := h
  exact ⟨h1, by omega⟩

variable {t k : Nat} {K : Int} (hk : 0 < k) (hk' : k < 4096) (ht : chBit t k = true) (hK : K = k ∨ K = -k)
include hk hk' ht hK

theorem chOk_of' {n : Nat} (h : Resid K n) : chOk t n = false := by
  rcases hK with rfl | rfl
  · exact chOk_of hk hk' ht h
  · exact chOk_of hk hk' ht h.neg

theorem chain_two {v : Int} (h : Chain [K, v]) (h1 : chNext (chOk t) [1] = true) : False := by
  obtain ⟨h', hc⟩ := h.tail (by simp)
  obtain rfl := h'.single
  obtain ⟨a, ha, b, hb, m, hm, hr⟩ := hc _ Cover.one
  have := chNext_of h1 ha hb hm
  rw [chOk_of' hk hk' ht hK hr] at this
  cases this

theorem chain_three {v w : Int} (h : Chain [K, v, w])
    (h1 : chNext (fun v1 => chNext (chOk t) [v1, 1]) [1] = true) : False := by
  obtain ⟨h', hc⟩ := h.tail (by simp)
  obtain ⟨h'', hc'⟩ := h'.tail (by simp)
  obtain rfl := h''.single
  obtain ⟨a, ha, b, hb, m, hm, hr⟩ := hc' _ Cover.one
  have g := chNext_of h1 ha hb hm
  obtain ⟨a, ha, b, hb, m', hm, hr'⟩ := hc _ (.cons hr Cover.one)
  have := chNext_of g ha hb hm
  rw [chOk_of' hk hk' ht hK hr'] at this
  cases this

theorem chain_four {u v w : Int} (h : Chain [K, u, v, w]) (h1 : chNext (chDeep t) [1] = true) : False := by
  obtain ⟨h', hc⟩ := h.tail (by simp)
  obtain ⟨h'', hc'⟩ := h'.tail (by simp)
  obtain ⟨h3, hc''⟩ := h''.tail (by simp)
  obtain rfl := h3.single
  obtain ⟨a, ha, b, hb, m1, hm, hr1⟩ := hc'' _ Cover.one
  have g : chDeep t m1 = true := chNext_of h1 ha hb hm
  obtain ⟨a, ha, b, hb, m2, hm, hr2⟩ := hc' _ (.cons hr1 Cover.one)
  have g2 := chNext_of g ha hb hm
  rw [Bool.and_eq_true] at g2
  obtain ⟨c, ha, d, hb, m3, hm', hr3⟩ := hc _ (.cons hr2 (.cons hr1 Cover.one))
  have bad := chOk_of' hk hk' ht hK hr3
  have gl := g2.2
  unfold chLast at gl
  rw [Bool.and_eq_true] at gl
  have key : chOk t m3 = true := by
    by_cases hd : d = m2
    · rw [hd] at hm'
      exact chPair_of (List.all_eq_true.1 gl.1 c ha) hm'
    · have hb := (List.mem_cons.1 hb).resolve_left hd
      by_cases hc : c = m2
      · rw [hc] at hm'
        exact chPair_of (List.all_eq_true.1 gl.2 d hb) hm'
      · have := chNext_of g ((List.mem_cons.1 ha).resolve_left hc) hb hm'
        rw [Bool.and_eq_true] at this
        exact this.1
  rw [bad] at key
  cases key

end Parm
