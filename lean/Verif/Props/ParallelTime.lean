import Verif.Fine.SpanProg
import Verif.Fine.WidthOps
import Verif.Props.Interleaving
import Verif.Props.WorstCase

/-!
# Property C70: the time on a number of workers

A bootstrap takes one unit of time on one of `w` workers, everything else takes no time.  `Proc.Timed w p T q`: `p`
becomes `q` in `T` units of time, in some schedule, possibly with idle workers.  `Proc.Greedy w p T q`: so, in a
schedule in which no worker is idle while a bootstrap is waiting.
-/

namespace Parm
open Proc (Timed Greedy Done Span Width Eval)

/-- what is said about the time `p` takes: it returns `a`, after `n` bootstraps, and takes `d` units of time if there
are workers enough -/
structure Timing {α : Type} (p : Proc α) (a : α) (n d : Nat) : Prop where
  /-- no schedule is faster than `d`, nor faster than `n / w` -/
  lower : ∀ {w T q}, Timed w p T q → Done q → q = Proc.ret a ∧ d ≤ T ∧ n ≤ w * T
  /-- a schedule without idle workers is at most by `(1 - 1/w) d` slower than `n / w` -/
  upper : ∀ {w T q}, 1 ≤ w → Greedy w p T q → Done q → q = Proc.ret a ∧ w * T ≤ n + (w - 1) * d
  /-- there is such a schedule for every number of workers -/
  attained : ∀ {w}, 1 ≤ w → ∃ T, Greedy w p T (Proc.ret a)

theorem timing_of_eval {α : Type} {p : Proc α} {a : α} {n d : Nat} (h : Eval p a n) (hd : Span p a d) : Timing p a n d where
  lower ht hq := by
    obtain rfl := ht.ends h hq
    have := ht.lower h hd (.ret a) (.ret a)
    exact ⟨rfl, by omega, by omega⟩
  upper hw hg hq := by
    obtain rfl := hg.timed.ends h hq
    exact ⟨rfl, hg.upper hw h hd⟩
  attained hw := Greedy.exists hw _ h

/-- a process that returned is done -/
theorem Proc.done_ret {α : Type} (a : α) : Done (Proc.ret a) := (Proc.done_iff _).2 (.inl ⟨a, rfl⟩)

namespace Timing
variable {α : Type} {p : Proc α} {a b : α} {n m d e : Nat}

/-- with one worker the time is the number of bootstraps -/
theorem one (h : Timing p a n d) {T : Nat} {q : Proc α} (hg : Greedy 1 p T q) (hq : Done q) : T = n := by
  have h1 := (h.lower hg.timed hq).2.2
  have h2 := (h.upper le_rfl hg hq).2
  omega

/-- with as many workers as bootstraps, one more, or even fewer, it is `d`: this determines `d` -/
theorem many (h : Timing p a n d) {w T : Nat} {q : Proc α} (hw : n < w + d) (hw1 : 1 ≤ w) (hg : Greedy w p T q) (hq : Done q) :
    T = d := by
  have h1 := (h.lower hg.timed hq).2.1
  have h2 := (h.upper hw1 hg hq).2
  obtain ⟨k, rfl⟩ : ∃ k, T = d + k := ⟨T - d, by omega⟩
  rcases k with _ | k
  · rfl
  · exfalso
    obtain ⟨v, rfl⟩ : ∃ v, w = v + 1 := ⟨w - 1, by omega⟩
    have e1 : (v + 1) * (d + (k + 1)) = v * d + d + (v + 1) * k + (v + 1) := by ring
    rw [e1, Nat.add_sub_cancel] at h2
    have : 0 ≤ (v + 1) * k := Nat.zero_le _
    omega

/-- what `Timing` says determines everything it speaks about -/
theorem unique (h : Timing p a n d) (h' : Timing p b m e) : a = b ∧ n = m ∧ d = e := by
  obtain ⟨T, hT⟩ := h.attained (w := 1) le_rfl
  obtain ⟨U, hU⟩ := h.attained (w := n + m + 1) (by omega)
  have h1 := h'.lower hT.timed (Proc.done_ret a)
  have e1 := h.one hT (Proc.done_ret a)
  have e2 := h'.one hT (Proc.done_ret a)
  have e3 := h.many (by omega) (by omega) hU (Proc.done_ret a)
  have e4 := h'.many (by omega) (by omega) hU (Proc.done_ret a)
  refine ⟨?_, by omega, by omega⟩
  injection h1.1

/-- more workers than `n - d` do not help -/
theorem span_le (h : Timing p a n d) : d ≤ n := by
  obtain ⟨T, hT⟩ := h.attained (w := 1) le_rfl
  have e1 := h.one hT (Proc.done_ret a)
  have := (h.lower hT.timed (Proc.done_ret a)).2.1
  omega

/-- no worker is wasted by more than a factor of two: compared with any other schedule on as many workers -/
theorem factor_two (h : Timing p a n d) {w T T' : Nat} {q q' : Proc α} (hw : 1 ≤ w) (hg : Greedy w p T q) (hq : Done q)
    (ht : Timed w p T' q') (hq' : Done q') : T ≤ 2 * T' := by
  have h1 := (h.upper hw hg hq).2
  have h2 := (h.lower ht hq').2
  obtain ⟨v, rfl⟩ : ∃ v, w = v + 1 := ⟨w - 1, by omega⟩
  rw [Nat.add_sub_cancel] at h1
  have h3 : v * d ≤ (v + 1) * T' := Nat.mul_le_mul (by omega) h2.1
  have h4 : (v + 1) * T ≤ (v + 1) * (2 * T') := by
    have : (v + 1) * (2 * T') = (v + 1) * T' + (v + 1) * T' := by ring
    omega
  exact Nat.le_of_mul_le_mul_left h4 (by omega)

end Timing

/-- a run with atomic tasks gives the timing of all schedules -/
theorem timing_of_run {α : Type} {p : Fine.P α} {m : M α} (h : Fine.Runs p m) {Q : α → Prop} {D : Nat} (hs : Fine.Short p Q D)
    {s s' : St} {a : α} (hm : m s = .ok (a, s')) : ∃ d, d ≤ D ∧ Timing p a (s'.pbs - s.pbs) d ∧ Q a := by
  have := h.out s
  rw [hm] at this
  obtain ⟨n, hn, he⟩ := this
  obtain ⟨d, -, hd⟩ := he.span
  obtain ⟨hq, hle⟩ := hs.out a d hd
  exact ⟨d, hle, by rw [show s'.pbs - s.pbs = n by omega]; exact timing_of_eval he hd, hq⟩

section
variable {S : Scheme} {pc : Cloud}

/-- **C70**, every operation on any operands: if it returns in one run, then in all schedules on all numbers of workers
it returns the same, and the times are those of `Timing`. -/
theorem C70_operation (ins : Instr) {xs : List (Ctxt S.C)} {z : Ctxt S.C} {s s' : St}
    (h : ins.run (arithCt S pc) xs s = .ok (z, s')) :
    ∃ d, Timing (Fine.Instr.run (Fine.arithCt S pc) xs ins) z (s'.pbs - s.pbs) d := by
  have hr := Fine.Runs.instrRun (Fine.Runs.arithCt S pc) xs ins
  have := hr.out s
  rw [h] at this
  obtain ⟨n, hn, he⟩ := this
  obtain ⟨d, -, hd⟩ := he.span
  exact ⟨d, by rw [show s'.pbs - s.pbs = n by omega]; exact timing_of_eval he hd⟩

/-- **C70**, sums and differences: with as many workers as the longer operand has words (or more), in every schedule
without idle workers, two units of time whatever the number of words; one unit without the final refresh. -/
theorem C70_add_constant {w : Nat} {x y : Ctxt S.C} (hx : x.length ≤ w) (hy : y.length ≤ w) {z : Ctxt S.C} {s s' : St} {T : Nat}
    {q : Proc (Ctxt S.C)} (hq : Done q) :
    (ctAdd S pc x y s = .ok (z, s') → Greedy w (Fine.ctAdd S pc x y) T q → q = Proc.ret z ∧ T ≤ 2) ∧
    (ctSub S pc x y s = .ok (z, s') → Greedy w (Fine.ctSub S pc x y) T q → q = Proc.ret z ∧ T ≤ 2) ∧
    (ctAddNoisy S pc x y s = .ok (z, s') → Greedy w (Fine.ctAddNoisy S pc x y) T q → q = Proc.ret z ∧ T ≤ 1) ∧
    (ctSubNoisy S pc x y s = .ok (z, s') → Greedy w (Fine.ctSubNoisy S pc x y) T q → q = Proc.ret z ∧ T ≤ 1) := by
  have key : ∀ (isAdd refresh : Bool) {m : M (Ctxt S.C)} {D : Nat} {Q : Ctxt S.C → Prop} {p : Fine.P (Ctxt S.C)},
      Fine.Runs p m → Fine.Short p Q D → Width p w → m s = .ok (z, s') → Greedy w p T q → q = Proc.ret z ∧ T ≤ D := by
    intro isAdd refresh m D Q p hr hs hw hm hg
    have := hr.out s
    rw [hm] at this
    obtain ⟨n, hn, he⟩ := this
    obtain ⟨d, -, hd⟩ := he.span
    obtain rfl := hg.timed.ends he hq
    obtain ⟨d', e, h'⟩ := hg.enough hw hd
    have := (Proc.span_ret h').2
    have := (hs.out z d hd).2
    exact ⟨rfl, by omega⟩
  have hw : ∀ isAdd refresh, Width (Fine.addSubImpl S isAdd pc x y refresh) w := fun i r =>
    (Fine.Slim.addSub i r x y).mono (by omega)
  exact ⟨key true true (Fine.Runs.ctAdd S pc x y) Fine.Short.ctAdd (hw true true).expect,
    key false true (Fine.Runs.ctSub S pc x y) Fine.Short.ctSub (hw false true).expect,
    key true false (Fine.Runs.ctAddNoisy S pc x y) Fine.Short.ctAddNoisy (hw true false).expect,
    key false false (Fine.Runs.ctSubNoisy S pc x y) Fine.Short.ctSubNoisy (hw false false).expect⟩

/-- **C70**, products: with workers enough, the time of a product is less than twice the number of words of the longer
operand below 18 words, and at most 10 more than that number from 18 words. -/
theorem C70_mul {x y z : Ctxt S.C} {s s' : St} (h : ctMul S pc x y s = .ok (z, s')) :
    ∃ d, Timing (Fine.ctMul S pc x y) z (s'.pbs - s.pbs) d ∧
      d ≤ (if max x.length y.length < 18 then 2 * max x.length y.length - 1 else max x.length y.length + 10) := by
  obtain ⟨d, hd, ht, -⟩ := timing_of_run (Fine.Runs.ctMul S pc x y) Fine.Short.mul h
  exact ⟨d, ht, hd⟩

/-- **C70**, signum: with workers enough, the time grows with the logarithm of the number of words. -/
theorem C70_sgn {x z : Ctxt S.C} {s s' : St} (h : ctSgn S pc x s = .ok (z, s')) :
    ∃ d, Timing (Fine.ctSgn S pc x) z (s'.pbs - s.pbs) d ∧ d ≤ spanSgn pc x.length := by
  obtain ⟨d, hd, ht, -⟩ := timing_of_run (Fine.Runs.ctSgn S pc x) Fine.Short.sgn h
  exact ⟨d, ht, by rw [← Fine.spanSgn_eq]; exact hd⟩

/-- the bound of the signum in plain numbers: `4^k` words take at most `k + 1` units of time -/
theorem C70_sgn_pow {x z : Ctxt S.C} {s s' : St} (h : ctSgn S pc x s = .ok (z, s')) {k : Nat} (hk : x.length ≤ 4 ^ k) :
    ∃ d, Timing (Fine.ctSgn S pc x) z (s'.pbs - s.pbs) d ∧ d ≤ k + 1 ∧ (pc.params.quadWeight ≥ 85 → d ≤ max k 1) := by
  obtain ⟨d, ht, hd⟩ := C70_sgn h
  refine ⟨d, ht, ?_⟩
  have hc : Nat.clog 4 x.length ≤ k := Nat.clog_le_of_le_pow hk
  unfold spanSgn spanReduce at hd
  split_ifs at hd with h1 h2
  · omega
  · have : 0 < Nat.clog 4 x.length := Nat.clog_pos (by omega) (by omega)
    exact ⟨by omega, fun _ => by omega⟩
  · have : 0 < Nat.clog 4 x.length := Nat.clog_pos (by omega) (by omega)
    exact ⟨by omega, fun h => absurd h h2⟩

/-- **C70**, whole programs: the time with workers enough is bounded by a number computed from the numbers of words of
the inputs. -/
theorem C70_program (hasc : pc.asc = asc12) (p : List Instr) {ns ms : List Nat} {c : Nat}
    (hm : worst (runProg (arithSpan pc) p ns) = some (ms, c)) {xs zs : List (Ctxt S.C)}
    (hx : List.Forall₂ (fun x n => x.length ≤ n) xs ns) {s s' : St} (h : runProg (arithCt S pc) p xs s = .ok (zs, s')) :
    ∃ d, d ≤ c ∧ Timing (Fine.runProg (Fine.arithCt S pc) p xs) zs (s'.pbs - s.pbs) d := by
  obtain ⟨d, hd, ht, -⟩ := timing_of_run (Fine.Runs.runProg (Fine.Runs.arithCt S pc) p xs)
    (((Fine.spanArith S hasc).prog p hx).short hm) h
  exact ⟨d, hd, ht⟩

/-- **C70**, networks. -/
theorem C70_network (hasc : pc.asc = asc12) (nn : NeuralNetwork) {ns ms : List Nat} {c : Nat}
    (hm : worst (nn.eval (arithSpan pc) ns) = some (ms, c)) {xs zs : List (Ctxt S.C)}
    (hx : List.Forall₂ (fun x n => x.length ≤ n) xs ns) {s s' : St} (h : nn.eval (arithCt S pc) xs s = .ok (zs, s')) :
    ∃ d, d ≤ c ∧ Timing (Fine.NeuralNetwork.eval (Fine.arithCt S pc) nn xs) zs (s'.pbs - s.pbs) d := by
  obtain ⟨d, hd, ht, -⟩ := timing_of_run (Fine.Runs.nnEval (Fine.Runs.arithCt S pc) nn xs)
    (((Fine.spanArith S hasc).evalLayers nn.layers hx .nil).short hm) h
  exact ⟨d, hd, ht⟩

/-- the bounds depend on the parameters through the two thresholds only -/
theorem arithSpan_congr {pc pc' : Cloud} (h1 : pc.params.quadWeight ≥ 85) (h2 : pc'.params.quadWeight ≥ 85) :
    arithSpan pc = arithSpan pc' := by
  have e0 : spanReduce pc = spanReduce pc' := by
    funext n; unfold spanReduce; rw [if_pos (c := 85 ≤ pc.params.quadWeight) h1, if_pos (c := 85 ≤ pc'.params.quadWeight) h2]
  have e1 : spanSgn pc = spanSgn pc' := by funext n; unfold spanSgn; rw [e0]
  have e2 : spanSelect pc = spanSelect pc' := by
    funext n
    unfold spanSelect
    rw [e0, if_pos (by omega), if_pos (by omega)]
  unfold arithSpan
  rw [e1, e2]

/-- **C70**, the shipped networks, with parameters that allow the fast paths, on all inputs of at most 11 words: on `w`
workers without idle ones, `arrhythmia_nn` takes at most `522402 / w + 17056` units of time, `demo_nn` at most
`545 / w + 78`. -/
theorem C70_shipped_networks (hasc : pc.asc = asc12) (hq : pc.params.quadWeight ≥ 85) {xs zs : List (Ctxt S.C)}
    (hx : ∀ x ∈ xs, x.length ≤ 11) {s s' : St} {w T : Nat} (hw : 1 ≤ w) {q : Proc (List (Ctxt S.C))} (hd : Done q) :
    (xs.length = 16 → arrhythmiaNn.eval (arithCt S pc) xs s = .ok (zs, s') →
      Greedy w (Fine.NeuralNetwork.eval (Fine.arithCt S pc) arrhythmiaNn xs) T q →
      q = Proc.ret zs ∧ w * T ≤ 522402 + (w - 1) * 17056) ∧
    (xs.length = 3 → demoNn.eval (arithCt S pc) xs s = .ok (zs, s') →
      Greedy w (Fine.NeuralNetwork.eval (Fine.arithCt S pc) demoNn xs) T q →
      q = Proc.ret zs ∧ w * T ≤ 545 + (w - 1) * 78) := by
  have hf : ∀ (k : Nat), xs.length = k → List.Forall₂ (fun x n => x.length ≤ n) xs (List.replicate k 11) := by
    intro k hk
    subst hk
    clear * - hx
    induction xs with
    | nil => exact .nil
    | cons x xs ih => exact .cons (hx x (by simp)) (ih fun y h => hx y (by simp [h]))
  have e : arithSpan pc = arithSpan Demo.cloud := arithSpan_congr hq (by decide)
  constructor
  · intro hl h hg
    have h1 := (C62_shipped_networks hasc hq hx (zs := zs) (s := s) (s' := s')).1 hl h
    obtain ⟨d, hd', ht⟩ := C70_network (S := S) hasc arrhythmiaNn (ns := List.replicate 16 11) (c := 17056)
      (ms := [98, 99, 96, 100, 96, 99, 101, 100, 98, 97, 100, 100, 98, 96, 98, 98]) (by rw [e]; decide +kernel) (hf _ hl) h
    obtain ⟨h2, h3⟩ := ht.upper hw hg hd
    have h4 : (w - 1) * d ≤ (w - 1) * 17056 := Nat.mul_le_mul_left _ hd'
    exact ⟨h2, by omega⟩
  · intro hl h hg
    have h1 := (C62_shipped_networks hasc hq hx (zs := zs) (s := s) (s' := s')).2 hl h
    obtain ⟨d, hd', ht⟩ := C70_network (S := S) hasc demoNn (ns := List.replicate 3 11) (c := 78) (ms := [21, 23, 23])
      (by rw [e]; decide +kernel) (hf _ hl) h
    obtain ⟨h2, h3⟩ := ht.upper hw hg hd
    have h4 : (w - 1) * d ≤ (w - 1) * 78 := Nat.mul_le_mul_left _ hd'
    exact ⟨h2, by omega⟩

end

section
variable {S : Scheme} {ck : ClientKey S} {pc : Cloud} {B D : Nat}

/-- **C70** with **C44** and **C62**: a program on valid inputs returns valid ciphertexts of the exact values, on any
number of workers `w` and in any schedule without idle workers, within `c/w + (1 - 1/w) d` units of time, where `c` and
`d` are computed from the numbers of words of the inputs. -/
theorem C70_values (st : Setting S ck pc B D) (hasc : pc.asc = asc12) (p : List Instr) (hs : ScalarsOk pc p)
    {xs : List (Ctxt S.C)} {vs : List Int} (h : ValidRegs ck B xs vs) {ls ls' : List Nat}
    (hle : List.Forall₂ (fun x n => x.length ≤ n) xs ls)
    (hwf : wfProg p xs.length) (hlen : lenProg p ls = some ls') {ms ms' : List Nat} {c d : Nat}
    (hc : worst (runProg (arithCost pc) p ls) = some (ms, c)) (hd : worst (runProg (arithSpan pc) p ls) = some (ms', d)) :
    ∃ zs, ValidRegs ck B zs (valProg p vs) ∧ ∀ {w T q}, 1 ≤ w →
      Greedy w (Fine.runProg (Fine.arithCt S pc) p xs) T q → Done q → q = Proc.ret zs ∧ w * T ≤ c + (w - 1) * d := by
  have hl : ls.length = xs.length := hle.length_eq.symm
  have hle' : ∀ i (h : i < xs.length), xs[i].length ≤ ls.getD i 0 := by
    intro i hi
    have := hle.get hi (by omega)
    simp only [List.get_eq_getElem] at this
    rw [List.getD_eq_getElem?_getD, List.getElem?_eq_getElem (by omega)]
    exact this
  obtain ⟨zs, n, hr, hv, -⟩ := C44_program st .release p hs h hl hle' hwf hlen
  refine ⟨zs, hv, ?_⟩
  intro w T q hw hg hq
  obtain ⟨r, rep, _, hrun⟩ := hr (St.init .seq)
  obtain ⟨d', hd', ht⟩ := C70_program hasc p hd hle hrun
  obtain ⟨h2, h3⟩ := ht.upper hw hg hq
  have h5 := (C62_program hasc p hc hle hrun).2
  have h4 : (w - 1) * d' ≤ (w - 1) * d := Nat.mul_le_mul_left _ hd'
  simp only [St.init] at h3 h5
  exact ⟨h2, by omega⟩

end

/-! ### Cases -/

/-- Two tasks of two bootstraps and of one bootstrap, then another bootstrap: two workers take three units of time. -/
example : Greedy 2 (Proc.both (Proc.pbs (Proc.pbs (Proc.ret 1))) (Proc.pbs (Proc.ret 2)) fun x y => Proc.pbs (Proc.ret (x + y))) 3
    (Proc.ret (3 : Nat)) := by
  have stab : ∀ {α β γ : Type} {p : Proc α} {q : Proc β} {k : α → β → Proc γ}, (∀ r, ¬ Proc.Step p 0 r) → (∀ r, ¬ Proc.Step q 0 r) →
      (∀ x, p ≠ Proc.ret x) → (∀ f, p ≠ Proc.fault f) → (∀ f, q ≠ Proc.fault f) → Proc.Stable (Proc.both p q k) := by
    intro α β γ p q k h1 h2 h3 h4 h5 r s
    cases s with
    | left s => exact h1 _ s
    | right s => exact h2 _ s
    | join2 => exact h3 _ rfl
    | abortL => exact h4 _ rfl
    | abortR => exact h5 _ rfl
  have np : ∀ {α : Type} {p r : Proc α}, ¬ Proc.Step (Proc.pbs p) 0 r := by intro α p r s; cases s
  have nr : ∀ {α : Type} {a : α} {r : Proc α}, ¬ Proc.Step (Proc.ret a) 0 r := by intro α a r s; cases s
  refine .round (stab (fun _ => np) (fun _ => np) (by simp) (by simp) (by simp)) ?_ (Proc.Par.both (.pbs _) (.pbs _)) <|
    .round (stab (fun _ => np) (fun _ => nr) (by simp) (by simp) (by simp)) ?_ (Proc.Par.both (.pbs _) (.idle _)) <|
    .silent .join2 <| .round (fun _ => np) ?_ (.pbs _) <| .refl _
  · exact fun h => h _ _ (.left (.pbs _))
  · exact fun h => h _ _ (.left (.pbs _))
  · exact fun h => h _ _ (.pbs _)

/-- Case: the program `demoProg` on four workers, at most `⌊(318 + 3 · 46) / 4⌋ = 114` units of time. -/
example : ∃ zs, ValidRegs Demo.ck (2 ^ 53) zs [5, -6, -1, 25, -25, 35, 35, -60, -56, -1, -101, -404, 0, 60, 60] ∧
    ∀ {T q}, Greedy 4 (Fine.runProg (Fine.arithCt Demo.scheme Demo.cloud12) demoProg
      [Demo.encVec [1, 0, 1], Demo.encVec [0, 1, 0, -1]]) T q → Done q → q = Proc.ret zs ∧ T ≤ 114 := by
  obtain ⟨zs, h1, h2⟩ := C70_values Demo.st12 rfl demoProg (Or.inr Demo.shipped12) (vs := [5, -6]) (ls := [3, 4])
    (xs := [Demo.encVec [1, 0, 1], Demo.encVec [0, 1, 0, -1]])
    ⟨rfl, fun i hi => by
      have : i = 0 ∨ i = 1 := by simp at hi; omega
      rcases this with rfl | rfl
      · exact Demo.valid5
      · exact Demo.validm6⟩
    (.cons (by simp [Demo.encVec]) (.cons (by simp [Demo.encVec]) .nil)) (by decide)
    (ls' := [3, 4, 5, 6, 12, 13, 13, 14, 15, 1, 8, 10, 10, 14, 15]) (by decide)
    (ms := [3, 4, 5, 6, 12, 13, 13, 14, 15, 1, 8, 10, 10, 14, 15]) (c := 318) (by decide +kernel)
    (ms' := [3, 4, 5, 6, 12, 13, 13, 14, 15, 1, 8, 10, 10, 14, 15]) (d := 46) (by decide +kernel)
  refine ⟨zs, h1, fun hg hq => ?_⟩
  obtain ⟨h3, h4⟩ := h2 (by omega) hg hq
  exact ⟨h3, by omega⟩

end Parm
