import Verif.Props.Depth
import Verif.Proof.MulTable
import Verif.Proof.SquTable

/-!
# Exact costs of products and squares (C55 and C56)

The tables `mulTable` and `squTable` are complete: operands of more than 32 words are rejected.
-/

namespace Parm

open Wt

variable {x y : Ctxt Term} {pc : Cloud} {S : Scheme}

theorem AllEncrypted.depthShape {x : Ctxt S.C} (h : AllEncrypted x) : CRel (fun (_ : S.C) (_ : Nat) => True) x (depthCt x.length) := by
  refine List.forall₂_of_length_eq_of_get (by simp [depthCt]) ?_
  intro i hi hi'
  obtain ⟨⟨c, hc⟩, hm⟩ := h x[i] (List.getElem_mem hi)
  simp only [List.get_eq_getElem, depthCt, List.getElem_replicate]
  generalize x[i] = w at hc hm
  obtain ⟨c', m⟩ := w
  dsimp only at hc hm
  subst hc hm
  exact WRel.ct 32 trivial

theorem cost_of_depth {Z : Prop} {m : M (Ctxt S.C)} {m0 : M (Ctxt depthScheme.C)}
    (h : RelM Z (CRel fun (_ : S.C) (_ : Nat) => True) m m0) {d l n : Nat} (hu : depthOf m0 = some (d, l, n)) :
    ∃ z, Returns m z n ∧ z.length = l := by
  unfold depthOf at hu
  rcases h with ⟨a, a', k, h1, h2, h3, _⟩ | ⟨_, h⟩
  · obtain ⟨r, _, _, hr⟩ := h2 (St.init Sched.seq)
    rw [hr] at hu
    simp only [Option.some.injEq, Prod.mk.injEq, St.init, Nat.zero_add] at hu
    exact ⟨a, hu.2.2 ▸ h1, by rw [h3.length_eq, hu.2.1]⟩
  · obtain ⟨f, hf⟩ := h (St.init Sched.seq)
    rw [hf] at hu
    cases hu

theorem mulTable_some {n : Nat} (h : n ≤ 32) : ∃ d l p, mulTable[n]? = some (d, l, p) :=
  ⟨_, _, _, List.getElem?_eq_getElem (l := mulTable) (i := n) (by simpa [mulTable] using Nat.lt_succ_of_le h)⟩

theorem squTable_some {n : Nat} (h : n ≤ 32) : ∃ d l p, squTable[n]? = some (d, l, p) :=
  ⟨_, _, _, List.getElem?_eq_getElem (l := squTable) (i := n) (by simpa [squTable] using Nat.lt_succ_of_le h)⟩

/-- **C55.** The exact depth of every product of two encrypted ciphertexts of the same length.  (It is not
monotonic: 17 words, for which the schoolbook method is used, take 33, while 16 and 18 take 23 and 25.) -/
theorem C55_mul_exact (h1 : pc.msgMod = 32) (h2 : pc.carryMod = 1) (hx : Samples x) (hy : Samples y) (hl : x.length = y.length)
    (h32 : x.length ≤ 32) : Yields (ctMul freeScheme pc x y) fun z => (mulTable[x.length]?).map (·.1) = some (maxDepth z) := by
  have h := depthRel.ctMul pc hx.rel hy.rel
  rw [← hl, (depth_agree h1 h2).mul] at h
  obtain ⟨d, l, p, e⟩ := mulTable_some h32
  obtain ⟨z, r1, _, r3⟩ := depth_of h ((mulTable_all _ h32).trans e)
  exact ⟨z, p, r1, by simp only [e, r3, Option.map_some]⟩

/-- **C55.** The exact depth of every square of an encrypted ciphertext. -/
theorem C55_squ_exact (h1 : pc.msgMod = 32) (h2 : pc.carryMod = 1) (hx : Samples x)
    (h32 : x.length ≤ 32) : Yields (ctSqu freeScheme pc x) fun z => (squTable[x.length]?).map (·.1) = some (maxDepth z) := by
  have h := depthRel.ctSqu pc hx.rel
  rw [(depth_agree h1 h2).squ] at h
  obtain ⟨d, l, p, e⟩ := squTable_some h32
  obtain ⟨z, r1, _, r3⟩ := depth_of h ((squTable_all _ h32).trans e)
  exact ⟨z, p, r1, by simp only [e, r3, Option.map_some]⟩

/-- **C56.** The product of two encrypted `n`-word ciphertexts, `n ≤ 32`, takes exactly the bootstraps and
has exactly the words of `mulTable`, in every scheme and under every schedule. -/
theorem C56_mul_cost (h1 : pc.msgMod = 32) (h2 : pc.carryMod = 1) {x y : Ctxt S.C} (hx : AllEncrypted x) (hy : AllEncrypted y)
    (hl : x.length = y.length) (h32 : x.length ≤ 32) :
    ∃ d l p z, mulTable[x.length]? = some (d, l, p) ∧ Returns (ctMul S pc x y) z p ∧ z.length = l := by
  have h := (schemeRel_true S depthScheme).ctMul pc hx.depthShape hy.depthShape
  rw [← hl, (depth_agree h1 h2).mul] at h
  obtain ⟨d, l, p, e⟩ := mulTable_some h32
  obtain ⟨z, r1, r2⟩ := cost_of_depth h ((mulTable_all _ h32).trans e)
  exact ⟨d, l, p, z, e, r1, r2⟩

/-- **C56.** The same for squares. -/
theorem C56_squ_cost (h1 : pc.msgMod = 32) (h2 : pc.carryMod = 1) {x : Ctxt S.C} (hx : AllEncrypted x) (h32 : x.length ≤ 32) :
    ∃ d l p z, squTable[x.length]? = some (d, l, p) ∧ Returns (ctSqu S pc x) z p ∧ z.length = l := by
  have h := (schemeRel_true S depthScheme).ctSqu pc hx.depthShape
  rw [(depth_agree h1 h2).squ] at h
  obtain ⟨d, l, p, e⟩ := squTable_some h32
  obtain ⟨z, r1, r2⟩ := cost_of_depth h ((squTable_all _ h32).trans e)
  exact ⟨d, l, p, z, e, r1, r2⟩

/-- **C56.** Below 16 words and for 17 the product costs `3n² - 2n` bootstraps; from 16 on (other than 17)
fewer.  A square costs less than the product of its root with itself from 2 words on. -/
theorem C56_formula : (∀ n, n ≤ 32 → ∃ d l p, mulTable[n]? = some (d, l, p) ∧
      (if n < 16 ∨ n = 17 then p = 3 * n ^ 2 - 2 * n else p < 3 * n ^ 2 - 2 * n)) ∧
    ∀ n, 2 ≤ n → n ≤ 32 → ∃ d l p d' l' p', mulTable[n]? = some (d, l, p) ∧ squTable[n]? = some (d', l', p') ∧ p' < p := by
  have key1 : ∀ n : Fin 33, if n.1 < 16 ∨ n.1 = 17 then (mulTable.getD n (0, 0, 0)).2.2 = 3 * n.1 ^ 2 - 2 * n.1
      else (mulTable.getD n (0, 0, 0)).2.2 < 3 * n.1 ^ 2 - 2 * n.1 := by decide +kernel
  have key2 : ∀ n : Fin 33, 2 ≤ n.1 → (squTable.getD n (0, 0, 0)).2.2 < (mulTable.getD n (0, 0, 0)).2.2 := by decide +kernel
  refine ⟨fun n hn => ?_, fun n h2 hn => ?_⟩
  · obtain ⟨d, l, p, e⟩ := mulTable_some hn
    have := key1 ⟨n, by omega⟩
    simp only [List.getD, e, Option.getD_some] at this
    exact ⟨d, l, p, e, this⟩
  · obtain ⟨d, l, p, e⟩ := mulTable_some hn
    obtain ⟨d', l', p', e'⟩ := squTable_some hn
    have := key2 ⟨n, by omega⟩ h2
    simp only [List.getD, e, e', Option.getD_some] at this
    exact ⟨d, l, p, d', l', p', e, e', this⟩

/-! Cases of the hypotheses -/

example : Yields (ctMul freeScheme Demo.cloud (inputs 0 17) (inputs 17 17)) fun z => 33 = maxDepth z := by
  refine (C55_mul_exact (pc := Demo.cloud) rfl rfl (samples_inputs 0 17) (samples_inputs 17 17) (by simp [inputs])
    (by simp [inputs])).mono fun z hz => ?_
  rw [show (inputs 0 17).length = 17 by simp [inputs]] at hz
  injection hz

example : ∃ z, Returns (ctMul Demo.scheme Demo.cloud (Demo.encVec [1, 0, 1]) (Demo.encVec [0, 1, -1])) z 21 ∧ z.length = 6 := by
  have he : ∀ l, AllEncrypted (Demo.encVec l) := by
    intro l w hw
    simp only [Demo.encVec, List.mem_map] at hw
    obtain ⟨i, _, rfl⟩ := hw
    exact ⟨⟨_, rfl⟩, rfl⟩
  obtain ⟨d, l, p, z, h1, h2, h3⟩ := C56_mul_cost (pc := Demo.cloud) rfl rfl (he [1, 0, 1]) (he [0, 1, -1])
    (by simp [Demo.encVec]) (by simp [Demo.encVec])
  rw [show (Demo.encVec [1, 0, 1]).length = 3 by simp [Demo.encVec]] at h1
  injection h1 with h1
  cases h1
  exact ⟨z, h2, h3⟩

end Parm
