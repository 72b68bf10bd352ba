import Verif.Model.Encryption
import Verif.Model.Addition

/-!
# Model of the example program of `/repo/README.md`

From the point where the keys and the cloud exist (`Keys` models how they come about).  User and cloud are the same binary.
Texts are not modelled, except for the two numbers and the verdict.
-/

namespace Parm

/-- `a`, `/repo/README.md:83` -/
def readmeA : List Int :=
  [1, 0, 1, -1, -1, 0, -1, 1, 1, -1, 1, 1, 1, -1, -1, 0, 0, 1, 1, 0, 0, 0, 0, -1, 0, 0, 0, 0, 0, -1, 0, 0]

/-- `b`, `/repo/README.md:84` -/
def readmeB : List Int :=
  [-1, 0, 0, -1, 1, 1, -1, 1, -1, 0, 0, 1, 0, 1, 1, 0, 0, 0, -1, 0, 0, 1, 0, 0, -1, 0, -1, -1, -1, 1, 1, 0]

/-- what the program prints: the decrypted sum, whether it says `PASS`, and the expected sum, `README.md:105-109` -/
structure ReadmeLine where
  sum : Int
  pass : Bool
  expected : Int
  deriving DecidableEq, Repr

/-- `main` of the example with the vectors `a` and `b`, `/repo/README.md:65-116` -/
def readmeMain (S : Scheme) (ck : ClientKey S) (pc : Cloud) (seedA seedB : Nat → Nat) (a b : List Int) : M ReadmeLine := do
  -- README.md:85-86
  let ca ← parmEncryptFromVec ck pc.msgMod seedA 0 a
  let cb ← parmEncryptFromVec ck pc.msgMod seedB 0 b
  -- README.md:88-89
  let aVal ← convertFromVec pc.build a
  let bVal ← convertFromVec pc.build b
  -- README.md:97
  let c ← ctAdd S pc ca cb
  -- README.md:101
  let s ← parmDecrypt ck pc.build c
  -- README.md:107-108, an addition of `i64`
  let e ← i64Op pc.build (aVal + bVal)
  pure ⟨s, s == e, e⟩

end Parm
