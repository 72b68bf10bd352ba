import Verif.Model.ScalarMul

/-!
# Model of `/repo/src/experiments.rs`
-/

namespace Parm

/-- local variables of `avg_adds_in_scalar_mul`, `/repo/src/experiments.rs:14-19` -/
structure AddsSt where
  valAds : List (Nat × (Nat × Nat))
  naiTot : Nat
  optTot : Nat

/-- loop body of `avg_adds_in_scalar_mul`, `/repo/src/experiments.rs:21-39` -/
def addsStep (b : Build) (asc : List (Nat × Asc)) (k : Nat) (s : AddsSt) : M AddsSt :=
  -- experiments.rs:23
  if k % 2 = 0 then pure s
  else do
    -- experiments.rs:25-29
    let ktv ← koyamaTsuruokaVec b k
    let w := ktv.take (if ktv.length < ascBitlen then ktv.length else ascBitlen)
    let wVal := (← (convertFromVec b w).expect).natAbs
    -- experiments.rs:32-38
    if (mapGet? s.valAds wVal).isSome then pure s
    else do
      let hw ← (binHw w).expect
      -- `hw-1` on usize
      let h1 ← (if hw = 0 then (match b with
          | .debug => M.panic .overflow
          | .release => pure (2 ^ 64 - 1)) else pure (hw - 1) : M Nat)
      let ch ← mapIdx asc wVal
      pure { valAds := mapInsert wVal (h1, ch.length) s.valAds, naiTot := s.naiTot + h1, optTot := s.optTot + ch.length }

/-- the loop, `n` iterations from `k` -/
def addsLoop (b : Build) (asc : List (Nat × Asc)) : (n k : Nat) → AddsSt → M AddsSt
  | 0, _, s => pure s
  | n + 1, k, s => do
    let s ← addsStep b asc k s
    addsLoop b asc n (k + 1) s

/-- `avg_adds_in_scalar_mul`, `/repo/src/experiments.rs:10-57`: the three numbers printed (`experiments.rs:53-55`) -/
def avgAdds (b : Build) (asc : List (Nat × Asc)) : M (Nat × Nat × Nat) := do
  let s ← addsLoop b asc (2 ^ ascBitlen - 1) 1 { valAds := [], naiTot := 0, optTot := 0 }
  pure (s.naiTot, s.optTot, s.valAds.length)

end Parm
