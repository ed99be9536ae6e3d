import Verif.Model.OTExt
import Mathlib.Data.Nat.Prime.Basic
import Mathlib.Data.Nat.ModEq
import Mathlib.Algebra.BigOperators.Group.Finset.Basic

/-!
# RSA keys and what the parties of an oblivious transfer see
-/

namespace TinyGarble.Spec

/-- The RSA key equation, as checked by OpenSSL's `RSA_check_key`: the modulus is the product of two
distinct primes and the exponents are inverse modulo `lcm (p-1) (q-1)`. -/
def ValidKey (k : RsaKey) : Prop :=
  ∃ p q : Nat, p.Prime ∧ q.Prime ∧ p ≠ q ∧ k.N = p * q ∧ k.e * k.d ≡ 1 [MOD Nat.lcm (p - 1) (q - 1)]

/-- Among the `2 ^ bits` equally likely results of `BN_rand(_k, bits, -1, 0)`, how many make the
receiver send `v` when its selection is `b`. -/
def secretsFor (bits : Nat) (key : RsaKey) (x : Nat → Int) (b : Bool) (v : Nat) : Nat :=
  ((Finset.range (2 ^ bits)).filter fun r => otV x key.N key.e b (r % key.N) = v).card

/-- In the extended transfer with selections `sel` and receiver's secrets `T`, a sender with secret `S`
obtains the numbers `q 0, …, q 127` from the base transfers: transfer `i` delivers message `S_i` of
the pairs the receiver enters. -/
def BaseGives (sel mLen S : Nat) (T : Nat → Nat) (q : Nat → Nat) : Prop :=
  ∃ Tr, switchRowColumnPair (extT sel T) mLen secKBit = some Tr
    ∧ ∀ i < 128, Tr i (if S.testBit i then 1 else 0) = q i

end TinyGarble.Spec
