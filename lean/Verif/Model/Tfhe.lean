import Verif.Model.Ciphertext
import Verif.Spec
import Mathlib.Algebra.BigOperators.Group.Finset.Basic
import Mathlib.Data.BitVec

/-!
# The primitives behind the crate, textbook version

What `apply_lookup_table` (`/repo/src/cloudovo/pbs.rs:71`), the linear operations on samples (`/repo/src/ciphertexts.rs:150-300`)
and `encrypt_without_padding` (`/repo/src/ciphertexts.rs:33-41`) do inside tfhe-rs, for parameters of the kind "key switch first,
then bootstrap" (`PARAM_MESSAGE_4_CARRY_0_KS_PBS`, `/repo/src/params.rs:103-116`).  The source of tfhe-rs is not part of the
repository; the algorithms are those of the TFHE papers: key switching with gadget decomposition, switching to the modulus
`2N`, blind rotation by CMux gates with external products, sample extraction.  Products of polynomials are exact (tfhe-rs uses
floating-point Fourier transforms).

A polynomial modulo `X^N + 1` is represented by its coefficients at all integers, where `f (i + N) = - f i`.
-/

namespace Parm.Tfhe
open Finset

/-- sample: mask and body; the mask is indexed by `ι`, of which only the indices of the key are used -/
structure Lwe (ι : Type) where
  a : ι → BitVec 64
  b : BitVec 64

abbrev Poly := Int → BitVec 64

/-- GLWE ciphertext: mask polynomials and body -/
structure Glwe where
  A : Nat → Poly
  B : Poly

/-- sizes: `k` mask polynomials of size `N = 2^logN`, small dimension `n`, and the two gadgets -/
structure Par where
  k : Nat
  logN : Nat
  n : Nat
  pbsBase : Nat
  pbsLevel : Nat
  ksBase : Nat
  ksLevel : Nat

def Par.N (P : Par) : Nat := 2 ^ P.logN

/-- the coordinates of the large key -/
def Par.big (P : Par) : Finset (Nat × Nat) := range P.k ×ˢ range P.N

/-- phase under a binary key -/
def Lwe.phase {ι : Type} (I : Finset ι) (s : ι → Bool) (c : Lwe ι) : BitVec 64 :=
  c.b - ∑ i ∈ I, BitVec.ofInt 64 (s i).toInt * c.a i

/-- product with a polynomial with small integer coefficients -/
def conv (N : Nat) (d : Nat → Int) (f : Poly) : Poly := fun i =>
  ∑ j ∈ range N, BitVec.ofInt 64 (d j) * f (i - j)

/-- the polynomial with given coefficients -/
def ext (N : Nat) (d : Nat → BitVec 64) : Poly := fun i =>
  if i % (2 * N : Nat) < N then d (i % (2 * N : Nat)).toNat else - d (i % (2 * N : Nat) - N).toNat

/-- key polynomial `u` -/
def keyPoly (s : Nat × Nat → Bool) (u : Nat) : Nat → Int := fun j => (s (u, j)).toInt

def Glwe.phase (P : Par) (s : Nat × Nat → Bool) (c : Glwe) : Poly := fun i =>
  c.B i - ∑ u ∈ range P.k, conv P.N (keyPoly s u) (c.A u) i

/-! ### Gadget decomposition -/

/-- balanced digit `t` of `y` in base `2^β` -/
def digitOf (β : Nat) : Int → Nat → Int
  | y, 0 => Int.bmod y (2 ^ β)
  | y, t + 1 => digitOf β ((y - Int.bmod y (2 ^ β)) / 2 ^ β) t

/-- digit `t` of the `β·ℓ` upper bits of `x`, rounded -/
def dec (β ℓ : Nat) (x : BitVec 64) (t : Nat) : Int :=
  digitOf β ((x.toNat + 2 ^ (63 - β * ℓ)) / 2 ^ (64 - β * ℓ) : Nat) t

/-- the weight of digit `t` -/
def gadget (β ℓ t : Nat) : BitVec 64 := BitVec.ofInt 64 (2 ^ (64 - β * ℓ + β * t))

/-! ### Key switching -/

def keySwitch (P : Par) (ksk : Nat × Nat → Nat → Lwe Nat) (c : Lwe (Nat × Nat)) : Lwe Nat where
  a j := - ∑ p ∈ P.big, ∑ t ∈ range P.ksLevel, BitVec.ofInt 64 (dec P.ksBase P.ksLevel (c.a p) t) * (ksk p t).a j
  b := c.b - ∑ p ∈ P.big, ∑ t ∈ range P.ksLevel, BitVec.ofInt 64 (dec P.ksBase P.ksLevel (c.a p) t) * (ksk p t).b

/-! ### Modulus switching -/

/-- the nearest of the `2N` positions -/
def position (logN : Nat) (x : BitVec 64) : Int :=
  (((x.toNat + 2 ^ (62 - logN)) / 2 ^ (63 - logN) % (2 * 2 ^ logN) : Nat) : Int)

/-! ### Blind rotation -/

/-- component `u` of a ciphertext, the body being number `k` -/
def Glwe.comp (k : Nat) (c : Glwe) (u : Nat) : Poly := if u < k then c.A u else c.B

/-- external product with the rows of a GGSW ciphertext -/
def extProd (P : Par) (rows : Nat → Nat → Glwe) (c : Glwe) : Glwe where
  A v i := ∑ u ∈ range (P.k + 1), ∑ t ∈ range P.pbsLevel,
    conv P.N (fun j => dec P.pbsBase P.pbsLevel (c.comp P.k u j) t) ((rows u t).A v) i
  B i := ∑ u ∈ range (P.k + 1), ∑ t ∈ range P.pbsLevel,
    conv P.N (fun j => dec P.pbsBase P.pbsLevel (c.comp P.k u j) t) (rows u t).B i

/-- CMux of `c` and `X^a · c` -/
def cmux (P : Par) (rows : Nat → Nat → Glwe) (a : Int) (c : Glwe) : Glwe :=
  let e := extProd P rows { A := fun u i => c.A u (i - a) - c.A u i, B := fun i => c.B (i - a) - c.B i }
  { A := fun u i => c.A u i + e.A u i, B := fun i => c.B i + e.B i }

def rotations (P : Par) (bsk : Nat → Nat → Nat → Glwe) (a : Nat → Int) : Nat → Glwe → Glwe
  | 0, c => c
  | t + 1, c => cmux P (bsk t) (a t) (rotations P bsk a t c)

def blindRotate (P : Par) (bsk : Nat → Nat → Nat → Glwe) (acc : List (BitVec 64)) (c : Lwe Nat) : Glwe :=
  rotations P bsk (fun t => position P.logN (c.a t)) P.n
    { A := fun _ _ => 0, B := fun i => ext P.N (fun j => acc.getD j 0) (i + position P.logN c.b) }

/-- constant coefficient of a GLWE ciphertext -/
def extract (c : Glwe) : Lwe (Nat × Nat) := { a := fun p => c.A p.1 (-(p.2 : Int)), b := c.B 0 }

/-- `apply_lookup_table` -/
def bootstrap (P : Par) (ksk : Nat × Nat → Nat → Lwe Nat) (bsk : Nat → Nat → Nat → Glwe) (acc : List (BitVec 64))
    (c : Lwe (Nat × Nat)) : Lwe (Nat × Nat) :=
  extract (blindRotate P bsk acc (keySwitch P ksk c))

/-! ### Keys -/

/-- secret keys and everything drawn at key generation -/
structure Secret where
  /-- the small key -/
  small : Nat → Bool
  /-- the coefficients of the large key -/
  large : Nat × Nat → Bool
  /-- masks and noise of the key switching key -/
  ksMask : Nat × Nat → Nat → Nat → BitVec 64
  ksNoise : Nat × Nat → Nat → Int
  /-- masks and noise of the bootstrapping key -/
  bsMask : Nat → Nat → Nat → Nat → Nat → BitVec 64
  bsNoise : Nat → Nat → Nat → Nat → Int
  /-- masks and noise of encryptions, by seed -/
  encMask : Nat → Nat × Nat → BitVec 64
  encNoise : Nat → Int

/-- a sample of phase `m + e` -/
def lweEnc {ι : Type} (I : Finset ι) (s : ι → Bool) (a : ι → BitVec 64) (e : Int) (m : BitVec 64) : Lwe ι where
  a := a
  b := ∑ i ∈ I, BitVec.ofInt 64 (s i).toInt * a i + m + BitVec.ofInt 64 e

/-- a ciphertext of the polynomial `m` with noise `e` -/
def glweEnc (P : Par) (s : Nat × Nat → Bool) (a : Nat → Nat → BitVec 64) (e : Nat → Int) (m : Poly) : Glwe where
  A u := ext P.N (a u)
  B i := ∑ u ∈ range P.k, conv P.N (keyPoly s u) (ext P.N (a u)) i + m i + ext P.N (fun j => BitVec.ofInt 64 (e j)) i

/-- key switching key: the digits of the large key under the small one -/
def Secret.ksk (P : Par) (K : Secret) (p : Nat × Nat) (t : Nat) : Lwe Nat :=
  lweEnc (range P.n) K.small (K.ksMask p t) (K.ksNoise p t)
    (BitVec.ofInt 64 (K.large p).toInt * gadget P.ksBase P.ksLevel t)

/-- what row `u` of a GGSW ciphertext of 1 holds, up to the gadget: `-s_u` for a mask component, `1` for the body -/
def rowPoly (P : Par) (s : Nat × Nat → Bool) (u : Nat) : Poly := fun i =>
  if u < P.k then - ext P.N (fun j => BitVec.ofInt 64 (keyPoly s u j)) i
  else ext P.N (fun j => BitVec.ofInt 64 (if j = 0 then 1 else 0)) i

/-- bootstrapping key: GGSW ciphertexts of the bits of the small key under the large one -/
def Secret.bsk (P : Par) (K : Secret) (r u t : Nat) : Glwe :=
  glweEnc P K.large (K.bsMask r u t) (K.bsNoise r u t)
    (fun i => BitVec.ofInt 64 (K.small r).toInt * (gadget P.pbsBase P.pbsLevel t * rowPoly P K.large u i))

/-! ### The scheme -/

def scheme (P : Par) (K : Secret) : Scheme where
  C := Lwe (Nat × Nat)
  add x y := ⟨fun p => x.a p + y.a p, x.b + y.b⟩
  neg x := ⟨fun p => - x.a p, - x.b⟩
  mulC x k := ⟨fun p => x.a p * k, x.b * k⟩
  addPt x p := ⟨x.a, x.b + p⟩
  pbs acc x := bootstrap P (K.ksk P) (K.bsk P) acc x

def clientKey (P : Par) (K : Secret) : ClientKey (scheme P K) where
  phase := Lwe.phase P.big K.large
  encrypt seed mu := lweEnc P.big K.large (K.encMask seed) (K.encNoise seed) (mu * 576460752303423488#64)

end Parm.Tfhe
