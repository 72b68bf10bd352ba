import Verif.Props.Schedule

/-!
# Bootstrap accounting of the `seq_analyze` feature: property C47
-/

namespace Parm

/-- Whenever the operation returns: the last thing printed is the number of bootstraps performed
since it was called; everything printed in between by nested operations is exact in the same sense;
and the counters of the surrounding operations are as before, the innermost of them increased by
that number. -/
def Counted {α : Type} (m : M α) : Prop :=
  ∀ (s s' : St) (a : α), m s = .ok (a, s') →
    s.pbs ≤ s'.pbs ∧
    (∃ nested, s'.reports = { start := s.pbs, finish := s'.pbs, count := s'.pbs - s.pbs } :: (nested ++ s.reports) ∧
      ∀ p ∈ nested, p.finish = p.start + p.count) ∧
    (s.nPbs = [] → s'.nPbs = []) ∧
    ∀ c rest, s.nPbs = c :: rest → s'.nPbs = (c + (s'.pbs - s.pbs)) :: rest

theorem Settled.counted {α : Type} {m : M α} (h : Settled m) : Counted m.call := by
  intro s s' a hs
  rcases h with ⟨b, n, h⟩ | h
  · obtain ⟨r, rep, hx, hr⟩ := h.expect.analysed_run s
    have hs' : M.analysed m.expect s = .ok (a, s') := hs
    rw [hr] at hs'
    cases hs'
    refine ⟨Nat.le_add_right _ _, ⟨rep, ?_, hx⟩, ?_, ?_⟩
    · simp
    · intro e; simp [e, bumpTop]
    · intro c rest e; simp [e, bumpTop]
  · obtain ⟨f, hf⟩ := h.call s
    rw [hs] at hf; cases hf

/-- what is printed during a whole computation is exact -/
theorem Settled.exact {α : Type} {m : M α} (h : Settled m) {s s' : St} {a : α} (hs : m s = .ok (a, s')) :
    ∃ rep, s'.reports = rep ++ s.reports ∧ (∀ p ∈ rep, p.finish = p.start + p.count) ∧
      (s.nPbs = [] → s'.nPbs = []) := by
  rcases h with ⟨b, n, h⟩ | h
  · obtain ⟨r, rep, hx, hr⟩ := h s
    rw [hs] at hr
    cases hr
    exact ⟨rep, rfl, hx, fun e => by simp [e, bumpTop]⟩
  · obtain ⟨f, hf⟩ := h s
    rw [hs] at hf; cases hf

section
variable (S : Scheme) (pc : Cloud)

/-- **C47.** Every operation that bootstraps, on arbitrary ciphertexts and at any nesting depth. -/
theorem C47_operations (x y : Ctxt S.C) (k : Int) (p : Nat) :
    Counted (ctAdd S pc x y) ∧ Counted (ctSub S pc x y) ∧ Counted (ctAddNoisy S pc x y) ∧
    Counted (ctSubNoisy S pc x y) ∧ Counted (ctAddConst S pc x k) ∧ Counted (ctScalarMul S pc k x) ∧
    Counted (ctSgn S pc x) ∧ Counted (ctMax S pc x y) ∧ Counted (ctRelu S pc x) ∧ Counted (ctMul S pc x y) ∧
    Counted (ctSqu S pc x) ∧ Counted (ctRoundAt S pc x p) := by
  have H := schemeRel_eq S
  have hx := CRel.refl x
  have hy := CRel.refl y
  exact ⟨(H.addSubImpl pc true true hx hy).left.counted, (H.addSubImpl pc false true hx hy).left.counted,
    (H.addSubImpl pc true false hx hy).left.counted, (H.addSubImpl pc false false hx hy).left.counted,
    (H.addConstImpl pc hx k).left.counted, (H.scalarMulImpl pc hx k).left.counted, (H.sgnImpl pc hx).left.counted,
    (H.maxImpl pc hx hy).left.counted, (H.maxImpl pc .nil hx).left.counted, (H.mulImpl pc mulFuel hx hy).left.counted,
    (H.squImpl pc mulFuel hx).left.counted, (H.roundAtImpl pc hx p).left.counted⟩

/-- **C47**, whole programs: every line printed is exact, and the counter stack is empty afterwards. -/
theorem C47_program (p : List Instr) (xs zs : List (Ctxt S.C)) {σ : Sched} {s' : St}
    (h : runProg (arithCt S pc) p xs (St.init σ) = .ok (zs, s')) :
    (∀ r ∈ s'.reports, r.finish = r.start + r.count) ∧ s'.nPbs = [] := by
  obtain ⟨rep, h1, h2, h3⟩ := (((schemeRel_eq S).arithCt pc).prog p (forall₂_crel_refl xs)).left.exact h
  rw [h1]
  exact ⟨by simpa [St.init] using h2, h3 rfl⟩

end

/-- the lines printed by an operation called by the user, latest first -/
def printed {α : Type} (m : M α) : List Nat :=
  match m (St.init Sched.seq) with
  | .ok (_, s) => s.reports.map Report.count
  | .error _ => []

/-- Adding two two-word ciphertexts takes four bootstraps; multiplying them takes eight, four of them by
the nested addition, which is printed first. -/
example : printed (ctAdd Demo.scheme Demo.cloud (Demo.encVec [1, 0]) (Demo.encVec [1, 1])) = [4] := by decide +kernel

example : printed (ctMul Demo.scheme Demo.cloud (Demo.encVec [1, 0]) (Demo.encVec [1, 1])) = [8, 4] := by decide +kernel

end Parm
