import Verif.Spec.Ddh
import Verif.Spec.Bytes
import Verif.Model.HashedElGamal
import Verif.Model.KeyCeremony
import Verif.Spec.PublishedBallot

/-!
# What an observer of hashed ElGamal ciphertexts sees

Contest data (overvotes and write-ins) and backups are encrypted with a key stream that is derived from a Diffie-Hellman
element.  Two things have to be hard: telling that element from an unrelated one (`Spec/Ddh.lean`), and telling the key
stream and the key of the MAC, derived from an unrelated element, from bytes that are drawn at random.  The second game is
`kdfAdvantage`.  As in `Spec/Ddh.lean` an observer is any function with whole numbers as answers, and all answers are added
up over everything random.
-/

namespace EG

open Finset

/-- `F` of a byte string of length `n`, summed over all `256 ^ n` of them. -/
def byteSum : Nat → (Bytes → Int) → Int
  | 0, F => F []
  | n + 1, F => ∑ b ∈ range 256, byteSum n (fun bs => F (UInt8.ofNat b :: bs))

/-- The text that is hashed with the key: the number of the block (0 for the key of the MAC), the seed and the length of the
message in bits, which is left out with the number if it is 0. -/
def streamText (seed n i : Nat) : Bytes :=
  if n = 0 then toHexBytes seed else leBytes 4 i ++ toHexBytes seed ++ leBytes 4 (32 * n * 8)

/-- The key that is derived from two elements. -/
def sessionKeyOf (E : Env) (Y Z : Nat) : Bytes := toHexBytes (hashElems E [.elem Y, .elem Z])

/-- The key stream for `n` blocks. -/
def keyStream (E : Env) (seed n Y Z : Nat) : Bytes :=
  (List.range n).flatMap fun i => E.hmac (sessionKeyOf E Y Z) (streamText seed n (i + 1))

/-- The key of the MAC of a message of `n` blocks. -/
def macKeyOf (E : Env) (seed n Y Z : Nat) : Bytes := E.hmac (sessionKeyOf E Y Z) (streamText seed n 0)

/-- What an adversary answers on public key, pad, key stream and key of the MAC, both derived from the pad and an unrelated
element. -/
def kdfReal (E : Env) (X R : Finset Nat) (seed n : Nat) (B : Nat → Nat → Bytes → Bytes → Int) : Int :=
  ∑ x ∈ X, ∑ r ∈ R, ∑ z ∈ range E.P.q,
    B (E.P.g ^ x % E.P.p) (E.P.g ^ r % E.P.p) (keyStream E seed n (E.P.g ^ r % E.P.p) (E.P.g ^ z % E.P.p))
      (macKeyOf E seed n (E.P.g ^ r % E.P.p) (E.P.g ^ z % E.P.p))

/-- What an adversary answers when key stream and key of the MAC are drawn at random. -/
def kdfRandom (E : Env) (X R : Finset Nat) (n : Nat) (B : Nat → Nat → Bytes → Bytes → Int) : Int :=
  ∑ x ∈ X, ∑ r ∈ R, byteSum (32 * n) fun ks => byteSum 32 fun mk => B (E.P.g ^ x % E.P.p) (E.P.g ^ r % E.P.p) ks mk

/-- `q · 256 ^ (32 n + 32) · |X| · |R|` times the advantage of an adversary: how far its average answer on a derived key
stream is from its average answer on random bytes. -/
def kdfAdvantage (E : Env) (X R : Finset Nat) (seed n : Nat) (B : Nat → Nat → Bytes → Bytes → Int) : Int :=
  256 ^ (32 * n + 32) * kdfReal E X R seed n B - E.P.q * kdfRandom E X R n B

/-- What `F` answers on the ciphertexts of the messages, each with its seed, under the key `K`, summed over all lists of
nonces of `R`. -/
def hashedSum (E : Env) (R : Finset Nat) (K : Nat) : List (Nat × Bytes) → (List HashedCiphertext → Int) → Int
  | [], F => F []
  | (seed, m) :: ms, F => ∑ r ∈ R,
      match hashedEncrypt E m r K seed with
      | .ok c => hashedSum E R K ms (fun cs => F (c :: cs))
      | .error _ => 0

/-- What an observer answers on the public key and the ciphertexts, summed over all secret keys of `X` and all lists of
nonces of `R`. -/
def hashedSeen (E : Env) (X R : Finset Nat) (D : Nat → List HashedCiphertext → Int) (ms : List (Nat × Bytes)) : Int :=
  ∑ x ∈ X, hashedSum E R (E.P.g ^ x % E.P.p) ms (D (E.P.g ^ x % E.P.p))

/-- The ciphertext of a message of `n` blocks with the given pad, key stream and key of the MAC. -/
def sealedWith (E : Env) (n : Nat) (m : Bytes) (Y : Nat) (ks mk : Bytes) : HashedCiphertext :=
  let data := List.zipWith (· ^^^ ·) (zeroExtend (32 * n) m) ks
  ⟨Y, bytesToHex data, bytesToHex (E.hmac mk (toHexBytes Y ++ data))⟩

/-- The adversary against key streams made of an observer: between ciphertexts it makes itself it puts the ciphertext with
the key stream it is given. -/
def streamAdversary (E : Env) (R : Finset Nat) (D : Nat → List HashedCiphertext → Int) (n : Nat)
    (before : List (Nat × Bytes)) (m : Bytes) (after : List (Nat × Bytes)) : Nat → Nat → Bytes → Bytes → Int :=
  fun K Y ks mk =>
    hashedSum E R K before fun a => hashedSum E R K after fun b => D K (a ++ sealedWith E n m Y ks mk :: b)

/-- The adversary against decisional Diffie-Hellman made of an observer: between ciphertexts it makes itself it puts the
ciphertext with the key stream of the second and third of its elements. -/
def secretAdversary (E : Env) (R : Finset Nat) (D : Nat → List HashedCiphertext → Int) (n : Nat)
    (before : List (Nat × Bytes)) (seed : Nat) (m : Bytes) (after : List (Nat × Bytes)) : Nat → Nat → Nat → Int :=
  fun K Y Z => streamAdversary E R D n before m after K Y (keyStream E seed n Y Z) (macKeyOf E seed n Y Z)

/-- What an observer answers on the public key of a guardian and the backups that the senders with these polynomials make for
them, summed over all secret keys and nonces. -/
def backupsSum (E : Env) (R : Finset Nat) (receiver : ElectionPublicKey) :
    List (String × Polynomial') → (List Backup → Int) → Int
  | [], F => F []
  | (sender, polynomial) :: ss, F => ∑ r ∈ R,
      match generateBackup E sender polynomial receiver r with
      | .ok b => backupsSum E R receiver ss (fun bs => F (b :: bs))
      | .error _ => 0

/-- The same, summed over all secret keys of the receiver. -/
def backupsSeen (E : Env) (X R : Finset Nat) (receiver : Nat → ElectionPublicKey) (D : Nat → List Backup → Int)
    (senders : List (String × Polynomial')) : Int :=
  ∑ x ∈ X, backupsSum E R (receiver (E.P.g ^ x % E.P.p)) senders (D (E.P.g ^ x % E.P.p))

/-- What an observer answers on the public key, the published votes and the encrypted contest data of ballots, summed over all
secret keys and everything random. -/
def recordSeen (E : Env) (X R : Finset Nat) (D : Nat → List PublishedContest → List HashedCiphertext → Int)
    (ballots : List (List Nat × ContestPlan)) (data : List (Nat × Bytes)) : Int :=
  ∑ x ∈ X, ballotShown E.P R (E.P.g ^ x % E.P.p) ballots fun pubs =>
    hashedSum E R (E.P.g ^ x % E.P.p) data fun cs => D (E.P.g ^ x % E.P.p) pubs cs

end EG
