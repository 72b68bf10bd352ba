import Verif.Proof.ChainTable
import Verif.Props.ScalarMul

/-!
# Property C59: the shipped chains are the shortest
-/

namespace Parm

/-- **C59.** No way of computing `±k` from 1 by additions and subtractions of earlier values, one of them shifted
arbitrarily far, takes fewer additions than the shipped chain of `k`. -/
theorem C59_optimal {k : Nat} {ch : Asc} (h : (k, ch) ∈ asc12) {n : Nat} {K : Int} (hK : K = k ∨ K = -k)
    (hn : ByAdditions n K) : ch.length ≤ n := by
  obtain ⟨vs, hc, hl, hm⟩ := hn
  obtain ⟨us, hu, hlt⟩ := hc.suffix hm
  by_contra hcon
  have ok := List.all_eq_true.1 ascLen_ok _ h
  simp only [Bool.and_eq_true] at ok
  obtain ⟨⟨h0, h1⟩, ok⟩ := ok
  have h0 : 0 < k := Nat.blt_eq.mp h0
  have h1 : k < 4096 := Nat.blt_eq.mp h1
  have hlen : us.length < ch.length := by omega
  match us, hu with
  | [], hu =>
    have := hu.single
    have hk : k = 1 := by omega
    subst hk
    revert ok
    generalize ch.length = l at *
    match l, hlen with
    | 1, _ => intro ok; cases ok
    | 2, _ => exact fun ok => absurd ok (by decide)
    | 3, _ => exact fun ok => absurd ok (by decide)
    | 4, _ => exact fun ok => absurd ok (by decide)
    | l + 5, _ => intro ok; cases ok
  | [v], hu =>
    generalize ch.length = l at *
    match l, hlen, ok with
    | 2, _, ok => exact chain_two h0 h1 ok hK hu chTwo
    | 3, _, ok => exact chain_two h0 h1 ok hK hu chTwo3
    | 4, _, ok => exact chain_two h0 h1 ok hK hu chTwo4
    | l + 5, _, ok => cases ok
  | [v, w], hu =>
    generalize ch.length = l at *
    match l, hlen, ok with
    | 3, _, ok => exact chain_three h0 h1 ok hK hu chThree
    | 4, _, ok => exact chain_three h0 h1 ok hK hu chThree4
    | l + 5, _, ok => cases ok
  | [u, v, w], hu =>
    generalize ch.length = l at *
    match l, hlen, ok with
    | 4, _, ok => exact chain_four h0 h1 ok hK hu chFour
    | l + 5, _, ok => cases ok
  | a :: b :: c :: d :: us, _ =>
    simp only [List.length_cons] at hlen
    generalize ch.length = l at *
    match l, hlen, ok with
    | l + 5, _, ok => cases ok

theorem chain_of_go : ∀ (ch : Asc) {vals : List Int} {c : Int}, Chain vals.reverse → chainGo ch vals = some c →
    ∃ vs, Chain vs ∧ vs.length = ch.length + vals.length ∧ c ∈ vs
  | [], vals, c, hv, h => ⟨vals.reverse, hv, by simp, by
      unfold chainGo at h
      rw [List.mem_reverse]
      exact List.mem_of_getLast? h⟩
  | e :: es, vals, c, hv, h => by
    unfold chainGo at h
    split at h
    · rename_i l r hl hr
      have key : Chain (vals ++ [(if e.lPos then l else -l) +
          (if e.rPos then r * 2 ^ e.rShift else -(r * 2 ^ e.rShift))]).reverse := by
        rw [List.reverse_append, List.reverse_singleton, List.singleton_append]
        have := Chain.step hv (List.mem_reverse.2 (List.mem_of_getElem? hl)) (List.mem_reverse.2 (List.mem_of_getElem? hr))
          (ε := if e.lPos then 1 else -1) (δ := if e.rPos then 1 else -1) (by cases e.lPos <;> simp) (by cases e.rPos <;> simp) e.rShift
        convert this using 2
        cases e.lPos <;> cases e.rPos <;> simp
      obtain ⟨vs, h1, h2, h3⟩ := chain_of_go es key h
      exact ⟨vs, h1, by rw [h2]; simp; omega, h3⟩
    · cases h

/-- the chains of the code are such computations -/
theorem byAdditions_of_value {ch : Asc} {c : Int} (h : chainValue ch = some c) : ByAdditions ch.length c :=
  chain_of_go (vals := [1]) ch Chain.one h

/-- **C59.** No chain of the form the library evaluates is shorter than the shipped one of the same value. -/
theorem C59_no_shorter_chain {k : Nat} {ch ch' : Asc} (h : (k, ch) ∈ asc12) {K : Int} (hK : K = k ∨ K = -k)
    (h' : chainValue ch' = some K) : ch.length ≤ ch'.length :=
  C59_optimal h hK (byAdditions_of_value h')

/-- The shipped chain of `k` is such a computation, so the bound is met. -/
theorem C59_met {k : Nat} {ch : Asc} (h : (k, ch) ∈ asc12) : ByAdditions ch.length k :=
  byAdditions_of_value (asc12_entry h).1

/-- Case: 11 takes two additions (`3 = 1 + 2·1`, `11 = -1 + 4·3`), and one is not enough. -/
example : ByAdditions 2 11 ∧ ¬ ByAdditions 1 11 := by
  have h : (11, [⟨true, 0, true, 0, 1⟩, ⟨false, 0, true, 1, 2⟩]) ∈ asc12 := by decide +kernel
  exact ⟨C59_met h, fun hc => absurd (C59_optimal h (.inl rfl) hc) (by decide)⟩

end Parm
