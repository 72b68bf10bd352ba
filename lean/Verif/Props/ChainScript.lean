import Verif.Proof.ChainScript
import Verif.Props.ScalarMul

/-!
# The search for chains and the table written from it: property C73
-/

namespace Parm
open ChainScript

/-- **C73.** Whatever the width limit and the number of rounds: every chain the search keeps computes the number it is kept
under, a positive odd one, by additions and subtractions of earlier values; and all the chains kept for one number have the
same number of additions. -/
theorem C73_chains {limit n : Nat} {chains : List (List AsChain)} {db : Db} (h : run limit n = some (chains, db))
    {v : Int} {cs : List AsChain} (he : (v, cs) ∈ db) :
    0 < v ∧ v % 2 = 1 ∧ cs ≠ [] ∧
      ∀ c ∈ cs, Chain (vals c).reverse ∧ (vals c).getLast? = some v ∧ ∀ d ∈ cs, d.length = c.length := by
  obtain ⟨hne, ⟨m, hm⟩, hc⟩ := (run_ok n h).db.2 _ he
  obtain ⟨c0, cs0, rfl⟩ := List.exists_cons_of_ne_nil hne
  obtain ⟨g0, l0⟩ := hc c0 (by simp)
  obtain ⟨p1, p2⟩ := g0.vals_odd v (List.mem_of_getLast? l0)
  refine ⟨p1, p2, hne, fun c hcm => ⟨?_, (hc c hcm).2, fun d hd => by rw [hm c hcm, hm d hd]⟩⟩
  obtain ⟨t, rfl, ht⟩ := (hc c hcm).1
  exact ht.chain Chain.one

theorem entry_ok {v : Int} {cs : List AsChain} (h : EntryOk v cs) :
    ∃ a, entry (v, cs) = some (v, a) ∧ chainValue a = some v ∧ ByAdditions a.length v ∧
      cs.head?.map List.length = some (a.length + 1) := by
  obtain ⟨hne, -, hc⟩ := h
  obtain ⟨c0, cs0, rfl⟩ := List.exists_cons_of_ne_nil hne
  obtain ⟨⟨t, rfl, ht⟩, hl⟩ := hc c0 (by simp)
  obtain ⟨a, a1, a2, a3⟩ := ht.parse (by simp) (by simp)
  have hvals : [1] ++ vals t = vals (Odd.unit :: t) := rfl
  refine ⟨a, ?_, ?_, ?_, by simp [a2]⟩
  · unfold entry
    simp only [List.head?_cons, List.tail_cons, Option.bind_eq_bind, Option.bind_some, a1]
  · rw [chainValue, a3, hvals, hl]
  · refine ⟨(vals (Odd.unit :: t)).reverse, ht.chain Chain.one, by simp [vals, a2], ?_⟩
    exact List.mem_reverse.2 (List.mem_of_getLast? hl)

/-- **C73.** The table written from the search lists every number found, once, and each of its entries is a chain for that
number: read by the library's rules its value is that number, and it has the printed number of additions. -/
theorem C73_table {limit n : Nat} {chains : List (List AsChain)} {db : Db} (h : run limit n = some (chains, db)) :
    ∃ t, table db = some t ∧ t.map (·.1) = db.map (·.1) ∧ (t.map (·.1)).Nodup ∧
      ∀ v a, (v, a) ∈ t → chainValue a = some v ∧ ByAdditions a.length v ∧
        ∃ cs, (v, cs) ∈ db ∧ cs.head?.map List.length = some (a.length + 1) := by
  obtain ⟨hnd, hok⟩ := (run_ok n h).db
  have main : ∀ l : Db, (∀ e ∈ l, EntryOk e.1 e.2) → ∃ t, table l = some t ∧ t.map (·.1) = l.map (·.1) ∧
      ∀ v a, (v, a) ∈ t → chainValue a = some v ∧ ByAdditions a.length v ∧
        ∃ cs, (v, cs) ∈ l ∧ cs.head?.map List.length = some (a.length + 1) := by
    intro l
    induction l with
    | nil => exact fun _ => ⟨[], rfl, rfl, by simp⟩
    | cons e l ih =>
      intro hl
      obtain ⟨t, t1, t2, t3⟩ := ih fun x hx => hl x (by simp [hx])
      obtain ⟨a, a1, a2, a3, a4⟩ := entry_ok (hl e (by simp))
      refine ⟨(e.1, a) :: t, ?_, by simp [t2], ?_⟩
      · unfold table at t1 ⊢
        simp only [List.mapM_cons, a1, t1, Option.bind_eq_bind, Option.bind_some, Option.pure_def]
      · intro v b hb
        rcases List.mem_cons.1 hb with hb | hb
        · cases hb
          exact ⟨a2, a3, e.2, by simp, a4⟩
        · obtain ⟨b1, b2, cs, b3, b4⟩ := t3 v b hb
          exact ⟨b1, b2, cs, by simp [b3], b4⟩
  obtain ⟨t, t1, t2, t3⟩ := main db hok
  exact ⟨t, t1, t2, t2 ▸ hnd, t3⟩

/-- **C73.** So a scalar multiplication by such a table multiplies by the number the entry is for. -/
theorem C73_eval {S : Scheme} {ck : ClientKey S} {pc : Cloud} {B D : Nat} (st : Setting S ck pc B D)
    {limit n : Nat} {chains : List (List AsChain)} {db : Db} (h : run limit n = some (chains, db))
    {t : List (Int × Asc)} (ht : table db = some t) {v : Int} {a : Asc} (ha : (v, a) ∈ t) {x : Ctxt S.C} {w : Int}
    (hx : Valid ck B x w) : Yields (ascEval (arithCt S pc) a x) (fun z => Valid ck B z (v * w)) := by
  obtain ⟨t', t1, -, -, t2⟩ := C73_table h
  rw [ht] at t1
  cases t1
  exact C27_eval st (t2 v a ha).1 hx

/-- **C73.** With a limit of at least 2 bits the search ends without an exception, after any number of rounds, … -/
theorem C73_ends {limit : Nat} (h : 2 ≤ limit) (n : Nat) : (run limit n).isSome := by
  obtain ⟨s, hs, -⟩ := run_full h n
  simp [hs]

/-- **C73.** … with a smaller one the first round finds nothing and the second one raises. -/
theorem C73_small {limit : Nat} (h : limit ≤ 1) (n : Nat) : run limit (n + 2) = none := by
  have ht : tries limit ChainScript.Odd.unit = [] := by
    unfold tries
    have : limit - ChainScript.Odd.unit.wid = 0 := by
      show limit - 1 = 0
      omega
    rw [this]
    rfl
  have hp : tryPair limit 1 [ChainScript.Odd.unit] [ChainScript.Odd.unit] ([], [(1, [[ChainScript.Odd.unit]])]) =
      some ([], [(1, [[ChainScript.Odd.unit]])]) := by
    unfold tryPair
    have hm : merge [ChainScript.Odd.unit] [ChainScript.Odd.unit] = some [ChainScript.Odd.unit] :=
      merge_unit ⟨[], rfl, trivial⟩
    rw [hm]
    simp only [Option.bind_eq_bind, Option.bind_some, List.length_singleton, ne_eq, not_true_eq_false, if_false,
      List.getLast?_singleton, ht, List.foldl_nil]
  have h1 : run limit 1 = some ([[[ChainScript.Odd.unit]], []], [(1, [[ChainScript.Odd.unit]])]) := by
    have he : extend limit [[[ChainScript.Odd.unit]]] [(1, [[ChainScript.Odd.unit]])] =
        some ([], [(1, [[ChainScript.Odd.unit]])]) := by
      show (tryPair limit 1 [ChainScript.Odd.unit] [ChainScript.Odd.unit] ([], [(1, [[ChainScript.Odd.unit]])])).bind _ = _
      rw [hp]
      rfl
    unfold run run
    simp only [Option.bind_eq_bind, Option.bind_some, he]
    rfl
  induction n with
  | zero =>
    unfold run
    simp only [Option.bind_eq_bind, h1, Option.bind_some]
    rfl
  | succ n ih =>
    unfold run
    rw [ih]
    rfl

/-- a run: limit 5, two rounds; the numbers found … -/
example : (run 5 2).map (fun s => s.2.map (·.1)) = some [1, 3, 5, 9, 7, 17, 15, 13, 11, 25, 23, 21, 19, 27, 33, 31] := by
  decide +kernel

/-- … and the entry written for 11 -/
example : ((run 5 2).bind fun s => table s.2).map (fun t => t.find? (·.1 = 11)) =
    some (some (11, [⟨true, 0, true, 0, 1⟩, ⟨false, 0, true, 1, 2⟩])) := by
  decide +kernel

end Parm
