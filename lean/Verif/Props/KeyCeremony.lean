import Verif.Lemmas.KeyCeremony

/-!
# C47: backups of guardian keys
-/

namespace EG

variable {E : Env}

/-- The key pair a guardian generates. -/
theorem generateElectionKeyPair_ok {id : String} {order : Int} {rands : List (Nat × Nat)} {kp : ElectionKeyPair}
    (h : generateElectionKeyPair E id order rands = .ok kp) :
    kp.ownerId = id ∧ kp.sequenceOrder = order ∧ kp.polynomial = generatePolynomial E rands ∧
      kp.keyPair.pub = gPowP E.P kp.keyPair.secret ∧ (rands.map Prod.fst).head? = some kp.keyPair.secret := by
  cases rands with
  | nil => cases h
  | cons r rs =>
    simp only [generateElectionKeyPair, generatePolynomial, List.map_cons, Except.ok.injEq] at h
    subst h
    refine ⟨rfl, rfl, rfl, rfl, rfl⟩

/-- C47 A guardian's key pair: the public key is `g` to the secret key and is the first commitment, and each
commitment is `g` to a coefficient. -/
theorem C47_key_pair {id : String} {order : Int} {rands : List (Nat × Nat)} {kp : ElectionKeyPair}
    (h : generateElectionKeyPair E id order rands = .ok kp) :
    kp.share.ownerId = id ∧ kp.share.sequenceOrder = order ∧
      kp.share.commitments = (rands.map Prod.fst).map (fun a => E.P.g ^ a % E.P.p) ∧
      kp.share.commitments.head? = some kp.share.key ∧ kp.share.key = E.P.g ^ kp.keyPair.secret % E.P.p := by
  obtain ⟨h1, h2, h3, h4, h5⟩ := generateElectionKeyPair_ok h
  have hc : kp.share.commitments = (rands.map Prod.fst).map (fun a => E.P.g ^ a % E.P.p) := by
    simp only [ElectionKeyPair.share, h3]
    exact commitments_generate E rands
  refine ⟨h1, h2, hc, ?_, h4⟩
  rw [hc, List.head?_map, h5]
  simp only [ElectionKeyPair.share, h4, Option.map_some]
  rfl

/-- C47 A guardian with no coefficients (quorum zero) cannot be created. -/
theorem C47_no_coefficients_raises (id : String) (order : Int) :
    generateElectionKeyPair E id order [] = .error .index := rfl

/-- C47 The backup `sender` generates for `receiver` names both, and `receiver` decrypts it to the coordinate of
`sender`'s polynomial at its sequence order. -/
theorem C47_backup_decrypts (hv : E.P.Valid) (hlen : HmacLen E) (loads : Bytes → R (List Char))
    (hl : ReadsCoordinate loads) (hq : E.P.q ≤ 256 ^ 246) (sid rid : String) (so : Int) (ro : Nat) (hro : ro < E.P.q)
    (srands rrands : List (Nat × Nat)) (sender receiver : ElectionKeyPair) (nonce : Nat)
    (hs : generateElectionKeyPair E sid so srands = .ok sender)
    (hr : generateElectionKeyPair E rid ro rrands = .ok receiver) :
    ∃ b, generateBackup E sid sender.polynomial receiver.share nonce = .ok b ∧
      b.ownerId = sid ∧ b.designatedId = rid ∧ b.designatedOrder = ro ∧
      decryptBackup E loads b receiver = .ok (some (polyAt (srands.map Prod.fst) ro % E.P.q)) := by
  obtain ⟨-, -, s3, -, -⟩ := generateElectionKeyPair_ok hs
  obtain ⟨r1, r2, -, r4, -⟩ := generateElectionKeyPair_ok hr
  have hc := C10_coordinate_value E hv srands ro hro
  have hlt : polyAt (srands.map Prod.fst) ro % E.P.q < E.P.q := Nat.mod_lt _ hv.q_pos
  obtain ⟨bytes, hb1, hb2, hb3⟩ := coordinateToBytes_ok hlt hq
  obtain ⟨c, hc1, hc2⟩ := C18_roundtrip_partial E hlen bytes nonce receiver.keyPair.secret (backupSeed E rid ro)
    (by omega) (by omega)
  refine ⟨⟨sid, rid, ro, c⟩, ?_, rfl, rfl, rfl, ?_⟩
  · simp only [generateBackup, ElectionKeyPair.share, r1, r2, s3, hc, hb1, r4, hc1, bind, Except.bind, pure, Except.pure]
  · simp only [decryptBackup, r1, r2, hc2, bind, Except.bind, pure, Except.pure, zeroExtend_self hb2,
      coordinateFromBytes_ok hl hlt hb3]

/-- C47 The recipient's verification of an honest backup succeeds and names sender, recipient and verifier.
Missing from the full claim: powers of the recipient's sequence order at or above `p` (C10). -/
theorem C47_honest_verified_partial (hv : E.P.Valid) (hlen : HmacLen E) (loads : Bytes → R (List Char))
    (hl : ReadsCoordinate loads) (hq : E.P.q ≤ 256 ^ 246) (sid rid : String) (so : Int) (ro : Nat) (hro : ro < E.P.q)
    (srands rrands : List (Nat × Nat)) (sender receiver : ElectionKeyPair) (nonce : Nat)
    (hs : generateElectionKeyPair E sid so srands = .ok sender)
    (hr : generateElectionKeyPair E rid ro rrands = .ok receiver)
    (hpow : ∀ i < srands.length, ro ^ i < E.P.p) :
    ∃ b, generateBackup E sid sender.polynomial receiver.share nonce = .ok b ∧
      verifyBackup E loads rid b sender.share receiver = .ok ⟨sid, rid, rid, true⟩ := by
  obtain ⟨-, -, s3, -, -⟩ := generateElectionKeyPair_ok hs
  obtain ⟨r1, r2, -, r4, -⟩ := generateElectionKeyPair_ok hr
  have hc := C10_coordinate_value E hv srands ro hro
  have hlt : polyAt (srands.map Prod.fst) ro % E.P.q < E.P.q := Nat.mod_lt _ hv.q_pos
  obtain ⟨bytes, hb1, hb2, hb3⟩ := coordinateToBytes_ok hlt hq
  obtain ⟨c, hc1, hc2⟩ := C18_roundtrip_partial E hlen bytes nonce receiver.keyPair.secret (backupSeed E rid ro)
    (by omega) (by omega)
  have hver := C10_honest_share_accepted_partial E hv srands ro _ hpow hc
  refine ⟨⟨sid, rid, ro, c⟩, ?_, ?_⟩
  · simp only [generateBackup, ElectionKeyPair.share, r1, r2, s3, hc, hb1, r4, hc1, bind, Except.bind, pure, Except.pure]
  · simp only [verifyBackup, hc2, bind, Except.bind, pure, Except.pure, zeroExtend_self hb2, getOptional,
      coordinateFromBytes_ok hl hlt hb3, ElectionKeyPair.share, s3, hver]

/-- C47 A successful verification guarantees usable compensation: whoever made the backup, if the recipient's
verification succeeds against commitments to the coefficients `as` (which exist for all commitments with valid
Schnorr proofs, C11), and the backup names the recipient's own sequence order, then the recipient decrypts the
backup to the value of that polynomial at its sequence order. -/
theorem C47_verified_is_usable_partial (hv : E.P.Valid) (loads : Bytes → R (List Char)) (b : Backup)
    (sender : ElectionPublicKey) (receiver : ElectionKeyPair) (v : Verification) (as : List Nat) (x : Nat)
    (hcom : sender.commitments = as.map (fun a => E.P.g ^ a % E.P.p))
    (hx : receiver.sequenceOrder = x) (horder : b.designatedOrder = receiver.sequenceOrder)
    (hpow : ∀ i < as.length, x ^ i < E.P.p)
    (h : verifyBackup E loads receiver.ownerId b sender receiver = .ok v) (hver : v.verified = true) :
    v.ownerId = b.ownerId ∧ v.designatedId = b.designatedId ∧ v.verifierId = receiver.ownerId ∧
      decryptBackup E loads b receiver = .ok (some (polyAt as x % E.P.q)) := by
  simp only [verifyBackup, bind, Except.bind, pure, Except.pure, horder] at h
  cases h1 : b.encrypted.decrypt E receiver.keyPair.secret (backupSeed E receiver.ownerId receiver.sequenceOrder) with
  | error => rw [h1] at h; cases h
  | ok o =>
    rw [h1] at h
    cases o with
    | none => cases h
    | some bytes =>
      simp only [getOptional] at h
      cases h2 : coordinateFromBytes E.P loads bytes with
      | error => rw [h2] at h; cases h
      | ok y =>
        rw [h2] at h
        simp only at h
        cases h3 : verifyCoordinate E.P y receiver.sequenceOrder sender.commitments with
        | error => rw [h3] at h; cases h
        | ok r =>
          rw [h3] at h
          simp only [Except.ok.injEq] at h
          subst h
          simp only at hver
          subst hver
          rw [hx, hcom] at h3
          have hy := C11_accepted_is_point_partial hv as x y (coordinateFromBytes_lt h2) hpow h3
          refine ⟨rfl, rfl, rfl, ?_⟩
          simp only [decryptBackup, h1, h2, bind, Except.bind, pure, Except.pure, hy]

/-- C47 (negative) A backup whose authentication fails does not lead to a failed verification the guardians could
challenge: the recipient's verification raises. -/
theorem C47_garbled_backup_raises (loads : Bytes → R (List Char)) (rid : String) (b : Backup)
    (sender : ElectionPublicKey) (receiver : ElectionKeyPair)
    (hbad : b.encrypted.decrypt E receiver.keyPair.secret (backupSeed E rid b.designatedOrder) = .ok none) :
    verifyBackup E loads rid b sender receiver = .error .assertion := by
  simp [verifyBackup, hbad, getOptional, bind, Except.bind]

/-- A guardian `r` with sequence order 2. -/
def toyReceiver : ElectionKeyPair :=
  match generateElectionKeyPair toyEnv "r" 2 [(6, 1), (4, 2)] with
  | .ok k => k
  | .error _ => ⟨"", 0, ⟨0, 0⟩, []⟩

/-- A guardian `s` with sequence order 1. -/
def toySender : ElectionKeyPair :=
  match generateElectionKeyPair toyEnv "s" 1 [(3, 1), (5, 2)] with
  | .ok k => k
  | .error _ => ⟨"", 0, ⟨0, 0⟩, []⟩

/-- A backup from `s` for `r`, made for sequence order 4. -/
def otherOrderBackup : Backup :=
  match generateBackup toyEnv "s" toySender.polynomial { toyReceiver.share with sequenceOrder := 4 } 5 with
  | .ok b => b
  | .error _ => ⟨"", "", 0, ⟨0, [], []⟩⟩

/-- C47 (negative) The condition on the order named in the backup matters: a backup made for another sequence order
than the recipient's verifies all the same, because the verification takes the order from the backup, and the
recipient cannot decrypt it when it is needed. -/
theorem C47_other_order_fails : ∃ (b : Backup) (sender receiver : ElectionKeyPair),
    verifyBackup toyEnv strictLoads receiver.ownerId b sender.share receiver = .ok ⟨"s", "r", "r", true⟩ ∧
      decryptBackup toyEnv strictLoads b receiver = .ok none :=
  ⟨otherOrderBackup, toySender, toyReceiver, by decide +kernel, by decide +kernel⟩

-- an honest backup: 3 + 5·2 = 13 = 0 modulo 13
example : (generateBackup toyEnv "s" toySender.polynomial toyReceiver.share 5).bind
    (fun b => decryptBackup toyEnv strictLoads b toyReceiver) = .ok (some 0) := by decide +kernel
example : (generateBackup toyEnv "s" toySender.polynomial toyReceiver.share 5).bind
    (fun b => verifyBackup toyEnv strictLoads "r" b toySender.share toyReceiver) = .ok ⟨"s", "r", "r", true⟩ := by
  decide +kernel
example : toyEnv.P.q ≤ 256 ^ 246 ∧ ∀ i < 2, 2 ^ i < toyEnv.P.p := by decide +kernel
example : ReadsCoordinate strictLoads := strictLoads_reads

end EG
