import Verif.Proof.WorstProg
import Verif.Props.DepthExact
import Verif.Data.Networks
import Verif.Proof.Instance

/-!
# Property C62: the worst-case number of bootstraps

Unlike C56, for operands of any lengths and any mixture of trivial and encrypted words, and for whole programs and
networks.
-/

namespace Parm
variable {S : Scheme} {pc : Cloud}

/-- **C62**, products: for all ciphertexts, whatever their words, in every scheme and under every schedule, if `mul`
returns, it took at most `3n²` bootstraps and the product has at most `2n + 2` words, where `n` is the number of words
of the longer operand. -/
theorem C62_mul {x y z : Ctxt S.C} {s s' : St} (h : ctMul S pc x y s = .ok (z, s')) :
    s'.pbs ≤ s.pbs + 3 * max x.length y.length ^ 2 ∧ z.length ≤ 2 * max x.length y.length + 2 := by
  obtain ⟨n, hn⟩ : ∃ n, n = max x.length y.length := ⟨_, rfl⟩
  rw [← hn]
  by_cases h32 : n ≤ 32
  · have key : ∀ n : Fin 33, mulCostB n ≤ 3 * n.1 ^ 2 ∧ mulLenB n ≤ 2 * n.1 + 2 := by decide +kernel
    have k := key ⟨n, by omega⟩
    have := (Within.mulImpl mulFuel x y n (by omega) (by omega) h32).call s z s' h
    simp only at k
    omega
  · have hl : (mulAlign S pc x y).1.length = n := by simp [mulAlign]; omega
    have : Within (mulImpl S pc mulFuel x y) (fun _ : Ctxt S.C => False) 0 := by
      unfold mulImpl
      simp only [hl]
      rw [if_neg (by omega), if_neg (by omega), if_neg (by omega), if_neg (by omega)]
      exact Within.err _
    exact (this.call s z s' h).1.elim

/-- **C62**, squares: at most `5n²/2` bootstraps and `2n + 4` words. -/
theorem C62_squ {x z : Ctxt S.C} {s s' : St} (h : ctSqu S pc x s = .ok (z, s')) :
    2 * (s'.pbs - s.pbs) ≤ 5 * x.length ^ 2 ∧ z.length ≤ 2 * x.length + 4 := by
  by_cases h32 : x.length ≤ 32
  · have key : ∀ n : Fin 33, 2 * squCostB n ≤ 5 * n.1 ^ 2 ∧ squLenB n ≤ 2 * n.1 + 4 := by decide +kernel
    have k := key ⟨x.length, by omega⟩
    have := (Within.squImpl mulFuel x x.length le_rfl h32).call s z s' h
    simp only at k
    omega
  · have : Within (squImpl S pc mulFuel x) (fun _ : Ctxt S.C => False) 0 := by
      unfold squImpl
      rw [if_neg (by omega), if_neg (by omega), if_neg (by omega), if_neg (by omega)]
      exact Within.err _
    exact (this.call s z s' h).1.elim

/-- **C62**, sums and differences: at most two bootstraps a word of the longer operand. -/
theorem C62_add {x y z : Ctxt S.C} {s s' : St} (h : ctAdd S pc x y s = .ok (z, s') ∨ ctSub S pc x y s = .ok (z, s')) :
    s'.pbs ≤ s.pbs + 2 * max x.length y.length := by
  have hc : costAdd 2 x.length y.length ≤ 2 * max x.length y.length := by unfold costAdd; split_ifs <;> omega
  rcases h with h | h
  · have := ((Within.addSub_len true true le_rfl le_rfl).call s z s' h).2
    simp only [if_true] at this
    omega
  · have := ((Within.addSub_len false true le_rfl le_rfl).call s z s' h).2
    simp only [if_true] at this
    omega

/-- **C62**, signum: at most one bootstrap a word; about half of one if the parameters allow the fast first round. -/
theorem C62_sgn {x z : Ctxt S.C} {s s' : St} (h : ctSgn S pc x s = .ok (z, s')) :
    s'.pbs ≤ s.pbs + x.length ∧ (pc.params.quadWeight ≥ 85 → s'.pbs ≤ s.pbs + (x.length + 1) / 2) := by
  have := ((Within.sgn le_rfl).call s z s' h).2
  unfold costSgn at this
  split_ifs at this with h1 h2
  · omega
  · exact ⟨by omega, fun _ => this⟩
  · exact ⟨this, fun h => absurd h h2⟩

/-- **C62**, maximum: at most `5n + 1` bootstraps, or `(7n + 2) / 2` if the parameters allow the fast paths. -/
theorem C62_max {x y z : Ctxt S.C} {s s' : St} (h : ctMax S pc x y s = .ok (z, s')) :
    s'.pbs ≤ s.pbs + (5 * max x.length y.length + 1) ∧
      (pc.params.quadWeight ≥ 85 → s'.pbs ≤ s.pbs + (7 * max x.length y.length + 2) / 2) := by
  have := ((Within.max le_rfl le_rfl).call s z s' h).2
  obtain ⟨n, hn⟩ : ∃ n, n = max x.length y.length := ⟨_, rfl⟩
  have h1 := (le_lenAdd x.length y.length).2
  have hc : costAdd 2 x.length y.length ≤ 2 * n := by unfold costAdd; split_ifs <;> omega
  have h3 := costSgn_mono (pc := pc) h1
  unfold costSelect at this
  rw [← hn] at this h1 h3 ⊢
  have h4 : costSgn pc (n + 1) ≤ n + 1 ∧ (pc.params.quadWeight ≥ 85 → costSgn pc (n + 1) ≤ (n + 2) / 2) := by
    unfold costSgn; split_ifs <;> omega
  constructor
  · split_ifs at this <;> omega
  · intro hq
    have h5 := h4.2 hq
    rw [if_pos (by omega)] at this
    omega

/-- **C62**, ReLU: at most `3n + 1` bootstraps, or `(3n + 2) / 2` if the parameters allow the fast paths. -/
theorem C62_relu {x z : Ctxt S.C} {s s' : St} (h : ctRelu S pc x s = .ok (z, s')) :
    s'.pbs ≤ s.pbs + (3 * x.length + 1) ∧
      (pc.params.quadWeight ≥ 85 → s'.pbs ≤ s.pbs + (3 * x.length + 2) / 2) := by
  have := ((Within.relu le_rfl).call s z s' h).2
  unfold costSelect at this
  have h4 : costSgn pc x.length ≤ x.length ∧ (pc.params.quadWeight ≥ 85 → costSgn pc x.length ≤ (x.length + 1) / 2) ∧
      (x.length ≤ 1 → costSgn pc x.length = 0) := by
    unfold costSgn; split_ifs <;> omega
  constructor
  · split_ifs at this <;> omega
  · intro hq
    have h5 := h4.2.1 hq
    rw [if_pos (by omega)] at this
    omega

/-- **C62**, rounding at `p`: at most as many bootstraps as twice the words, plus one. -/
theorem C62_roundAt {x z : Ctxt S.C} {p : Nat} {s s' : St} (h : ctRoundAt S pc x p s = .ok (z, s')) :
    s'.pbs ≤ s.pbs + (2 * x.length + 1) := by
  have := ((Within.roundAt le_rfl).call s z s' h).2
  have h4 : costSgn pc (p - 1) ≤ p - 1 := by unfold costSgn; split_ifs <;> omega
  split_ifs at this <;> omega

/-- **C62**, whole programs: for all inputs of at most so many words, the results have at most so many words and the run
takes at most so many bootstraps as computed from the numbers of words alone. -/
theorem C62_program (hasc : pc.asc = asc12) (p : List Instr) {ns ms : List Nat} {c : Nat}
    (hm : worst (runProg (arithCost pc) p ns) = some (ms, c)) {xs zs : List (Ctxt S.C)}
    (hx : List.Forall₂ (fun x n => x.length ≤ n) xs ns) {s s' : St} (h : runProg (arithCt S pc) p xs s = .ok (zs, s')) :
    List.Forall₂ (fun z m => z.length ≤ m) zs ms ∧ s'.pbs ≤ s.pbs + c :=
  (((Wc.costArith S hasc).prog p hx).within hm) s zs s' h

/-- **C62**, networks. -/
theorem C62_network (hasc : pc.asc = asc12) (nn : NeuralNetwork) {ns ms : List Nat} {c : Nat}
    (hm : worst (nn.eval (arithCost pc) ns) = some (ms, c)) {xs zs : List (Ctxt S.C)}
    (hx : List.Forall₂ (fun x n => x.length ≤ n) xs ns) {s s' : St} (h : nn.eval (arithCt S pc) xs s = .ok (zs, s')) :
    List.Forall₂ (fun z m => z.length ≤ m) zs ms ∧ s'.pbs ≤ s.pbs + c :=
  (((Wc.costArith S hasc).evalLayers nn.layers hx .nil).within hm) s zs s' h

/-- the bound of accumulation: every sum is one word longer than the one before -/
theorem worst_accumulate (hasc : pc.asc = asc12) {n : Nat} : ∀ {xs : List (Ctxt S.C)} {x : Ctxt S.C} {l : Nat},
    (∀ y ∈ xs, y.length ≤ n) → x.length ≤ l → n ≤ l →
    Within (accumulate (arithCt S pc) xs x) (fun z => z.length ≤ l + xs.length) (xs.length * (2 * l + xs.length - 1))
  | [], x, l, _, hx, _ => Within.pure (by simpa using hx)
  | y :: xs, x, l, hy, hx, hn => by
    refine ((Within.addSub_len true true hx (le_trans (hy y (by simp)) hn)).call.bind (k := xs.length * (2 * (l + 1) + xs.length - 1))
      fun z hz => ?_).mono (fun _ h => h) ?_
    · refine (worst_accumulate hasc (l := l + 1) (fun y h => hy y (by simp [h])) ?_ (by omega)).mono (fun z h => ?_) le_rfl
      · have := (le_lenAdd l l).2
        omega
      · rw [List.length_cons]; omega
    · have hc : costAdd 2 l l ≤ 2 * l := by unfold costAdd; split_ifs <;> omega
      simp only [if_true, List.length_cons]
      have e1 : 2 * l + (xs.length + 1) - 1 = 2 * l + xs.length := by omega
      have e2 : xs.length * (2 * (l + 1) + xs.length - 1) = xs.length * (2 * l + xs.length) + xs.length := by
        rw [show 2 * (l + 1) + xs.length - 1 = 2 * l + xs.length + 1 by omega, Nat.mul_succ]
      rw [e1, e2, Nat.add_mul, Nat.one_mul]
      omega

/-- **C62**, accumulation: adding `k` ciphertexts of at most `n` words to another one takes at most `k(2n + k - 1)`
bootstraps: the growth by one word per addition makes it quadratic in `k`. -/
theorem C62_accumulate (hasc : pc.asc = asc12) {n : Nat} {xs : List (Ctxt S.C)} {x z : Ctxt S.C}
    (hx : x.length ≤ n) (hxs : ∀ y ∈ xs, y.length ≤ n) {s s' : St} (h : accumulate (arithCt S pc) xs x s = .ok (z, s')) :
    s'.pbs ≤ s.pbs + xs.length * (2 * n + xs.length - 1) ∧ z.length ≤ n + xs.length :=
  ⟨((worst_accumulate hasc hxs hx le_rfl) s z s' h).2, ((worst_accumulate hasc hxs hx le_rfl) s z s' h).1⟩

/-- **C62**, sharpness: for the lengths of the schoolbook method, the bound of products is attained by all encrypted
operands; for the others it exceeds their cost by at most 3 percent. -/
theorem C62_mul_sharp (h1 : pc.msgMod = 32) (h2 : pc.carryMod = 1) {x y : Ctxt S.C} (hx : AllEncrypted x)
    (hy : AllEncrypted y) (hl : x.length = y.length) (h32 : x.length ≤ 32) :
    ∃ c p z, (mulBound[x.length]?).map (·.1) = some c ∧ Returns (ctMul S pc x y) z p ∧ 100 * c ≤ 104 * p ∧
      ((x.length < 16 ∨ x.length = 17) → c = p) := by
  obtain ⟨d, l, p, z, e, hr, -⟩ := C56_mul_cost h1 h2 hx hy hl h32
  have key : ∀ n : Fin 33, 100 * mulCostB n ≤ 104 * (mulTable.getD n (0, 0, 0)).2.2 ∧
      ((n.1 < 16 ∨ n.1 = 17) → mulCostB n = (mulTable.getD n (0, 0, 0)).2.2) := by decide +kernel
  have k := key ⟨x.length, by omega⟩
  simp only [List.getD, e, Option.getD_some] at k
  refine ⟨mulCostB x.length, p, z, ?_, hr, k.1, k.2⟩
  unfold mulCostB
  have hi : x.length < mulBound.length := by show _ < 33; omega
  rw [List.getD_eq_getElem?_getD, List.getElem?_eq_getElem hi]
  rfl

/-- the bounds depend on the parameters through the two thresholds only -/
theorem arithCost_congr {pc pc' : Cloud} (h1 : pc.params.quadWeight ≥ 85) (h2 : pc'.params.quadWeight ≥ 85) :
    arithCost pc = arithCost pc' := by
  have e1 : costSgn pc = costSgn pc' := by funext n; unfold costSgn; rw [if_pos h1, if_pos h2]
  have e2 : costSelect pc = costSelect pc' := by
    funext d n
    unfold costSelect
    rw [e1, if_pos (by omega), if_pos (by omega)]
  unfold arithCost
  rw [e1, e2]

/-- **C62**, the shipped networks, with parameters that allow the fast paths: on all inputs of at most 11 words,
`arrhythmia_nn` takes at most 522402 bootstraps, `demo_nn` (three inputs) at most 545. -/
theorem C62_shipped_networks (hasc : pc.asc = asc12) (hq : pc.params.quadWeight ≥ 85) {xs zs : List (Ctxt S.C)}
    (hx : ∀ x ∈ xs, x.length ≤ 11) {s s' : St} :
    (xs.length = 16 → arrhythmiaNn.eval (arithCt S pc) xs s = .ok (zs, s') →
      s'.pbs ≤ s.pbs + 522402 ∧ ∀ z ∈ zs, z.length ≤ 101) ∧
    (xs.length = 3 → demoNn.eval (arithCt S pc) xs s = .ok (zs, s') →
      s'.pbs ≤ s.pbs + 545 ∧ ∀ z ∈ zs, z.length ≤ 23) := by
  have hf : ∀ (k : Nat), xs.length = k → List.Forall₂ (fun x n => x.length ≤ n) xs (List.replicate k 11) := by
    intro k hk
    subst hk
    clear * - hx
    induction xs with
    | nil => exact .nil
    | cons x xs ih => exact .cons (hx x (by simp)) (ih fun y h => hx y (by simp [h]))
  have hall : ∀ {ms : List Nat} {b : Nat}, (∀ m ∈ ms, m ≤ b) →
      List.Forall₂ (fun (z : Ctxt S.C) m => z.length ≤ m) zs ms → ∀ z ∈ zs, z.length ≤ b := by
    intro ms b hb h
    clear * - hb h
    induction h with
    | nil => simp
    | cons h1 _ ih =>
      intro z hz
      rcases List.mem_cons.1 hz with rfl | hz
      · exact h1.trans (hb _ (by simp))
      · exact ih (fun m hm => hb m (by simp [hm])) z hz
  have e : arithCost pc = arithCost Demo.cloud := arithCost_congr hq (by decide)
  constructor
  · intro hl h
    have := C62_network (S := S) hasc arrhythmiaNn (ns := List.replicate 16 11) (c := 522402)
      (ms := [98, 99, 96, 100, 96, 99, 101, 100, 98, 97, 100, 100, 98, 96, 98, 98]) (by rw [e]; decide +kernel) (hf _ hl) h
    exact ⟨this.2, hall (by decide) this.1⟩
  · intro hl h
    have := C62_network (S := S) hasc demoNn (ns := List.replicate 3 11) (c := 545) (ms := [21, 23, 23])
      (by rw [e]; decide +kernel) (hf _ hl) h
    exact ⟨this.2, hall (by decide) this.1⟩

/-! ### Cases -/

/-- Case: `round((x·y + 5·x)², 4)` on 4 and 3 words, any mixture of trivial and encrypted ones. -/
example {x y : Ctxt S.C} (hx : x.length ≤ 4) (hy : y.length ≤ 3) (hasc : pc.asc = asc12) {zs : List (Ctxt S.C)}
    {s s' : St}
    (h : runProg (arithCt S pc) [.mul 0 1, .scalarMul 5 0, .add 2 3, .squ 4, .roundAt 5 2] [x, y] s = .ok (zs, s')) :
    s'.pbs ≤ s.pbs + 630 :=
  (C62_program (ns := [4, 3]) (ms := [4, 3, 8, 14, 15, 32, 33]) (c := 630) hasc _ rfl (.cons hx (.cons hy .nil)) h).2

end Parm
