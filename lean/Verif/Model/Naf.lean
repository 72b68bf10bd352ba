import Verif.Model.Encryption

/-!
# Model of `/repo/src/cloudovo/scalar_multiplication/naf.rs`

`u32` values are `Nat`s (below `2^32` at the entry points); `(k >> i) & 1` is
`k / 2^i % 2` for `i < 32`.  Index variables and the counters `y`, `z`, `v` stay within
`[-32, 32]`, so their `i32`/`usize` arithmetic never wraps and is modelled on `Int`/`Nat`.
-/

namespace Parm

/-- `(k >> i) & 1` on `u32`; a shift amount `≥ 32` panics in debug builds and is reduced
modulo 32 in release builds. -/
def u32Bit (b : Build) (k i : Nat) : M Int :=
  if i < 32 then pure ((k / 2 ^ i % 2 : Nat) : Int)
  else match b with
    | .debug => M.panic .overflow
    | .release => pure ((k / 2 ^ (i % 32) % 2 : Nat) : Int)

/-- `(((k >> i) & 1) - 1) as i32` on `u32`: underflows when the bit is 0 (`naf.rs:134,154`) -/
def u32BitPred (b : Build) (k i : Nat) : M Int := do
  let t ← u32Bit b k i
  let u ← u32Op b (t - 1)
  pure (wrapI32 u)

/-- `while j < bound { k_vec[j] = f(j); j += 1; }`; returns the vector (`j` ends at
`max j bound`). `n = bound - j` iterations. -/
def fillWhile (f : Nat → M Int) : (n j : Nat) → List Int → M (List Int)
  | 0, _, v => pure v
  | n + 1, j, v => do
    let t ← f j
    let v ← setIdx v j t
    fillWhile f n (j + 1) v

/-- local variables of `koyama_tsuruoka_vec`, `naf.rs:106,113-115` -/
structure KtSt where
  vec : List Int
  j : Nat
  m : Int
  x : Nat
  y : Int
  z : Int
  u : Nat
  v : Int
  w : Nat

/-- body of the main loop of `koyama_tsuruoka_vec`, `naf.rs:118-142` -/
def ktStep (b : Build) (k : Nat) (s : KtSt) : M KtSt := do
  -- naf.rs:118-119
  let bit ← u32Bit b k s.x
  let y := if bit = 1 then s.y + 1 else s.y - 1
  let x := s.x + 1
  if s.m = 0 then
    if y ≥ s.z + 3 then do
      -- naf.rs:122-127
      let vec ← fillWhile (u32Bit b k) (s.w - s.j) s.j s.vec
      let j := max s.j s.w
      let vec ← setIdx vec j (-1)
      pure { s with vec := vec, j := j + 1, x := x, y := y, v := y, u := x, m := 1 }
    else if y < s.z then
      pure { s with x := x, y := y, z := y, w := x }
    else
      pure { s with x := x, y := y }
  else
    if s.v ≥ y + 3 then do
      -- naf.rs:133-138
      let vec ← fillWhile (u32BitPred b k) (s.u - s.j) s.j s.vec
      let j := max s.j s.u
      let vec ← setIdx vec j 1
      pure { s with vec := vec, j := j + 1, x := x, y := y, z := y, w := x, m := 0 }
    else if y > s.v then
      pure { s with x := x, y := y, v := y, u := x }
    else
      pure { s with x := x, y := y }

/-- main loop, `naf.rs:117-143`: `n = (k_len - 1) - x` iterations -/
def ktLoop (b : Build) (k : Nat) : Nat → KtSt → M KtSt
  | 0, s => pure s
  | n + 1, s => do
    let s ← ktStep b k s
    ktLoop b k n s

/-- final part of `koyama_tsuruoka_vec`, `naf.rs:145-166` -/
def ktFinish (b : Build) (k : Nat) (s : KtSt) : M (List Int) := do
  if s.m = 0 ∨ (s.m = 1 ∧ s.v ≤ s.y) then do
    -- naf.rs:146-151
    let vec ← fillWhile (fun i => do
        let t ← u32Bit b k i
        pure (t - s.m)) (s.x - s.j) s.j s.vec
    let j := max s.j s.x
    let vec ← setIdx vec j (1 - s.m)
    setIdx vec (j + 1) s.m
  else do
    -- naf.rs:153-165
    let vec ← fillWhile (u32BitPred b k) (s.u - s.j) s.j s.vec
    let j := max s.j s.u
    let vec ← setIdx vec j 1
    let j := j + 1
    let vec ← fillWhile (u32Bit b k) (s.x - j) j vec
    let j := max j s.x
    let vec ← setIdx vec j 1
    setIdx vec (j + 1) 0

/-- `koyama_tsuruoka_vec`, `/repo/src/cloudovo/scalar_multiplication/naf.rs:95-175` -/
def koyamaTsuruokaVec (b : Build) (k : Nat) : M (List Int) :=
  if k = 0 then pure [0]
  else if k = 1 then pure [1]
  else do
    let kLen := bitLen32 (BitVec.ofNat 32 k)
    let s ← ktLoop b k (kLen - 1)
      { vec := List.replicate (kLen + 1) 0, j := 0, m := 0, x := 0, y := 0, z := 0,
        u := 0, v := 0, w := 0 }
    let vec ← ktFinish b k s
    -- naf.rs:172
    pure (if vec.getLast? = some 0 then vec.dropLast else vec)

/-- first index `≥ sh` holding a nonzero digit (or the length), `naf.rs:17` -/
def skipZeros (v : List Int) (sh : Nat) : Nat :=
  sh + ((v.drop sh).takeWhile (· == 0)).length

/-- loop of `wind_shifts`, `/repo/src/cloudovo/scalar_multiplication/naf.rs:15-29`, on
`fuel` (every iteration advances `sh` by `bitlen`). -/
def windShiftsLoop (b : Build) (kVec : List Int) (bitlen : Nat) : Nat → Nat → M (List (Int × Nat))
  | 0, _ => M.panic .fuel
  | fuel + 1, sh => do
    -- naf.rs:17
    let sh := skipZeros kVec sh
    -- naf.rs:20; `k_vec[sh..=hi]` panics when `sh > hi + 1` or `hi >= len`
    let hi := if sh + bitlen - 1 ≥ kVec.length then kVec.length - 1 else sh + bitlen - 1
    if sh > hi + 1 ∨ hi ≥ kVec.length then M.panic .index
    else do
      let w := (kVec.drop sh).take (hi + 1 - sh)
      -- naf.rs:21-22
      let wi ← (convertFromVec b w).expect
      let wi := wrapI32 wi
      -- naf.rs:25
      let sh' := sh + bitlen
      -- naf.rs:28
      if sh' ≥ kVec.length then pure [(wi, sh)]
      else do
        let rest ← windShiftsLoop b kVec bitlen fuel sh'
        pure ((wi, sh) :: rest)

/-- `wind_shifts`, `/repo/src/cloudovo/scalar_multiplication/naf.rs:3-32` (`bitlen ≥ 1`) -/
def windShifts (b : Build) (k : Nat) (bitlen : Nat) : M (List (Int × Nat)) := do
  let kVec ← koyamaTsuruokaVec b k
  windShiftsLoop b kVec bitlen (kVec.length + 1) 0

/-- one iteration of the loop of `naf_vec`, `naf.rs:60-87`, on `(k_vec, low_1)` -/
def nafStep (b : Build) (k i : Nat) (vec : List Int) (low1 : Nat) : M (List Int × Nat) := do
  let t ← u32Bit b k i
  let vec := vec ++ [t]
  if t = 0 then do
    -- `i - low_1` cannot underflow: `low_1 ≤ i` (naf.rs:66)
    let vec ← (if i - low1 > 1 then do
        let prev ← (if low1 > 0 then do
            let p ← idx vec (low1 - 1)
            pure (some p) else pure none : M (Option Int))
        let vec ← (if prev = some 1 then do
            let vec ← setIdx vec (low1 - 1) (-1)
            setIdx vec low1 0
          else setIdx vec low1 (-1) : M (List Int))
        let vec ← fillWhile (fun _ => pure 0) (i - (low1 + 1)) (low1 + 1) vec
        setIdx vec i 1
      else pure vec : M (List Int))
    pure (vec, i + 1)
  else pure (vec, low1)

/-- loop of `naf_vec`: `n` iterations from index `i` -/
def nafLoop (b : Build) (k : Nat) : (n i : Nat) → List Int → Nat → M (List Int)
  | 0, _, vec, _ => pure vec
  | n + 1, i, vec, low1 => do
    let (vec, low1) ← nafStep b k i vec low1
    nafLoop b k n (i + 1) vec low1

/-- `naf_vec`, `/repo/src/cloudovo/scalar_multiplication/naf.rs:35-90`.  For a 32-bit `k`
the last iteration shifts by 32 (`naf.rs:60-62`), handled by `u32Bit`. -/
def nafVec (b : Build) (k : Nat) : M (List Int) :=
  if k = 0 then pure [0]
  else if k = 1 then pure [1]
  else
    let kLen := bitLen32 (BitVec.ofNat 32 k)
    nafLoop b k (kLen + 1) 0 [] 0

end Parm
