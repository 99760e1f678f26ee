import Verif.Model.Ballot
import Verif.Model.BallotBox
import Verif.Model.BallotCompact
import Verif.Model.Basic
import Verif.Model.BigInteger
import Verif.Model.BytePadding
import Verif.Model.ChaumPedersen
import Verif.Model.Cli
import Verif.Model.CliText
import Verif.Model.Compare
import Verif.Model.Constants
import Verif.Model.DataStore
import Verif.Model.DbWatcher
import Verif.Model.DecryptSecrets
import Verif.Model.DecryptShares
import Verif.Model.Decryption
import Verif.Model.DecryptionMediator
import Verif.Model.DiscreteLog
import Verif.Model.ElGamal
import Verif.Model.ElectionBuilder
import Verif.Model.Encrypt
import Verif.Model.EncryptLog
import Verif.Model.Equality
import Verif.Model.Export
import Verif.Model.ExportLocation
import Verif.Model.Factories
import Verif.Model.Group
import Verif.Model.Guardian
import Verif.Model.GuiBallots
import Verif.Model.GuiDecryption
import Verif.Model.GuiElection
import Verif.Model.GuiKeyCeremony
import Verif.Model.GuiKeyCeremonyText
import Verif.Model.GuiLists
import Verif.Model.GuiRecord
import Verif.Model.GuiReport
import Verif.Model.GuiSession
import Verif.Model.GuiText
import Verif.Model.GuiTime
import Verif.Model.Hash
import Verif.Model.HashedElGamal
import Verif.Model.HexElement
import Verif.Model.Instances
import Verif.Model.Json
import Verif.Model.KeyCeremony
import Verif.Model.KeyCeremonyMediator
import Verif.Model.KeyCeremonyState
import Verif.Model.Log
import Verif.Model.Manifest
import Verif.Model.Marking
import Verif.Model.Names
import Verif.Model.ObjectBase
import Verif.Model.Orchestrator
import Verif.Model.PlainTally
import Verif.Model.Polynomial
import Verif.Model.ProofName
import Verif.Model.Random
import Verif.Model.SampleGenerator
import Verif.Model.Serialize
import Verif.Model.SerializeShares
import Verif.Model.Strategies
import Verif.Model.Tally
import Verif.Model.TallyCounts
import Verif.Model.Time
import Verif.Model.UploadWizard
import Verif.Model.Validator
import Verif.Model.Verify
import Verif.Spec.Audit
import Verif.Spec.AuditQuorum
import Verif.Spec.BallotCode
import Verif.Spec.BallotCompact
import Verif.Spec.Bytes
import Verif.Spec.Cli
import Verif.Spec.CliText
import Verif.Spec.Coalition
import Verif.Spec.DbWatcher
import Verif.Spec.Ddh
import Verif.Spec.Decryption
import Verif.Spec.DecryptionBallots
import Verif.Spec.DecryptionRecord
import Verif.Spec.DiscreteLog
import Verif.Spec.ElGamal
import Verif.Spec.Election
import Verif.Spec.Encrypt
import Verif.Spec.EncryptLog
import Verif.Spec.Equality
import Verif.Spec.Export
import Verif.Spec.ExportLocation
import Verif.Spec.Extraction
import Verif.Spec.Forgery
import Verif.Spec.Group
import Verif.Spec.GuiBallots
import Verif.Spec.GuiDecryption
import Verif.Spec.GuiElection
import Verif.Spec.GuiKeyCeremony
import Verif.Spec.GuiKeyCeremonyText
import Verif.Spec.GuiLists
import Verif.Spec.GuiReport
import Verif.Spec.GuiText
import Verif.Spec.Hash
import Verif.Spec.HashedPrivacy
import Verif.Spec.Instances
import Verif.Spec.KeyCeremony
import Verif.Spec.KeyCeremonyRecord
import Verif.Spec.Log
import Verif.Spec.Manifest
import Verif.Spec.Marking
import Verif.Spec.Mid
import Verif.Spec.Names
import Verif.Spec.Orchestrator
import Verif.Spec.Polynomial
import Verif.Spec.ProofName
import Verif.Spec.PublishedBallot
import Verif.Spec.RandomOracle
import Verif.Spec.Record
import Verif.Spec.RecordForgery
import Verif.Spec.SampleGenerator
import Verif.Spec.Serialize
import Verif.Spec.SerializeShares
import Verif.Spec.Strategies
import Verif.Spec.Tally
import Verif.Spec.TallyCeremony
import Verif.Spec.TallyCounts
import Verif.Spec.Toy
import Verif.Spec.ToyDecryption
import Verif.Spec.ToyElection
import Verif.Spec.TwoRecords
import Verif.Spec.UploadWizard
import Verif.Spec.Validator
import Verif.Spec.Verify
import Verif.Spec.Vote
import Verif.Spec.ZeroKnowledge
import Verif.Lemmas.AuditQuorum
import Verif.Lemmas.ChaumPedersen
import Verif.Lemmas.Cli
import Verif.Lemmas.CliCommands
import Verif.Lemmas.CliText
import Verif.Lemmas.DecryptBallot
import Verif.Lemmas.Decryption
import Verif.Lemmas.Dict
import Verif.Lemmas.DiscreteLog
import Verif.Lemmas.DiscreteLogHistory
import Verif.Lemmas.ElGamal
import Verif.Lemmas.Election
import Verif.Lemmas.Encrypt
import Verif.Lemmas.EncryptBallot
import Verif.Lemmas.EncryptCongr
import Verif.Lemmas.Equality
import Verif.Lemmas.EqualityValid
import Verif.Lemmas.Export
import Verif.Lemmas.ExportAudit
import Verif.Lemmas.ExportRecord
import Verif.Lemmas.Forking
import Verif.Lemmas.Group
import Verif.Lemmas.GuiBallots
import Verif.Lemmas.GuiDecryption
import Verif.Lemmas.GuiKeyCeremony
import Verif.Lemmas.GuiKeyCeremonyLive
import Verif.Lemmas.GuiKeyCeremonyPhases
import Verif.Lemmas.GuiKeyCeremonyRace
import Verif.Lemmas.GuiKeyCeremonyStep
import Verif.Lemmas.GuiKeyCeremonyText
import Verif.Lemmas.GuiLists
import Verif.Lemmas.GuiRace
import Verif.Lemmas.GuiRecord
import Verif.Lemmas.GuiText
import Verif.Lemmas.GuiTime
import Verif.Lemmas.Hash
import Verif.Lemmas.HashedElGamal
import Verif.Lemmas.Hex
import Verif.Lemmas.Instances
import Verif.Lemmas.Invert
import Verif.Lemmas.Json
import Verif.Lemmas.JsonRead
import Verif.Lemmas.JsonText
import Verif.Lemmas.KeyCeremony
import Verif.Lemmas.KeyCeremonyMediator
import Verif.Lemmas.Manifest
import Verif.Lemmas.ManifestHash
import Verif.Lemmas.Marking
import Verif.Lemmas.Names
import Verif.Lemmas.Orchestrator
import Verif.Lemmas.Polynomial
import Verif.Lemmas.Primality
import Verif.Lemmas.QuorumElection
import Verif.Lemmas.QuorumRecord
import Verif.Lemmas.QuorumSetup
import Verif.Lemmas.QuorumShares
import Verif.Lemmas.Reconstruct
import Verif.Lemmas.Record
import Verif.Lemmas.SampleGenerator
import Verif.Lemmas.Serialize
import Verif.Lemmas.SerializeFields
import Verif.Lemmas.SerializeRead
import Verif.Lemmas.SerializeShares
import Verif.Lemmas.Sort
import Verif.Lemmas.Strategies
import Verif.Lemmas.Submit
import Verif.Lemmas.Tally
import Verif.Lemmas.TallyCeremony
import Verif.Lemmas.Time
import Verif.Lemmas.Typed
import Verif.Lemmas.Validator
import Verif.Lemmas.Vote
import Verif.Props.Audit
import Verif.Props.AuditQuorum
import Verif.Props.BallotBox
import Verif.Props.BallotCode
import Verif.Props.BallotCompact
import Verif.Props.BallotHash
import Verif.Props.BallotPrivacy
import Verif.Props.Batch
import Verif.Props.Bytes
import Verif.Props.Calls
import Verif.Props.ChaumPedersen
import Verif.Props.Cli
import Verif.Props.CliCommands
import Verif.Props.CliText
import Verif.Props.CliTextToy
import Verif.Props.Coalition
import Verif.Props.Compare
import Verif.Props.ConstantExact
import Verif.Props.Constants
import Verif.Props.DataStore
import Verif.Props.DbWatcher
import Verif.Props.Decryption
import Verif.Props.DecryptionBallots
import Verif.Props.DecryptionMediator
import Verif.Props.DecryptionRecord
import Verif.Props.DiscreteLog
import Verif.Props.DiscreteLogAny
import Verif.Props.ElGamal
import Verif.Props.Election
import Verif.Props.ElectionBuilder
import Verif.Props.Encrypt
import Verif.Props.EncryptExact
import Verif.Props.EncryptLog
import Verif.Props.Equality
import Verif.Props.Export
import Verif.Props.ExportLocation
import Verif.Props.Extraction
import Verif.Props.Factories
import Verif.Props.Forgery
import Verif.Props.Group
import Verif.Props.Guardian
import Verif.Props.GuardianCalls
import Verif.Props.GuiBallots
import Verif.Props.GuiDecryption
import Verif.Props.GuiDecryptionLive
import Verif.Props.GuiDecryptionToy
import Verif.Props.GuiElection
import Verif.Props.GuiElectionToy
import Verif.Props.GuiJoin
import Verif.Props.GuiKeyCeremony
import Verif.Props.GuiKeyCeremonyText
import Verif.Props.GuiKeyCeremonyTextToy
import Verif.Props.GuiKeyCeremonyToy
import Verif.Props.GuiLists
import Verif.Props.GuiListsToy
import Verif.Props.GuiRecord
import Verif.Props.GuiRecordToy
import Verif.Props.GuiReport
import Verif.Props.GuiReportToy
import Verif.Props.GuiSession
import Verif.Props.GuiTally
import Verif.Props.GuiText
import Verif.Props.GuiTextToy
import Verif.Props.GuiTime
import Verif.Props.Hash
import Verif.Props.HashedElGamal
import Verif.Props.HashedElGamalExact
import Verif.Props.HashedPrivacy
import Verif.Props.Instances
import Verif.Props.KeyCeremony
import Verif.Props.KeyCeremonyMediator
import Verif.Props.KeyCeremonyRecord
import Verif.Props.KeyCeremonyState
import Verif.Props.Limit
import Verif.Props.Log
import Verif.Props.Manifest
import Verif.Props.Marking
import Verif.Props.MarkingToy
import Verif.Props.Names
import Verif.Props.ObjectBase
import Verif.Props.Orchestrator
import Verif.Props.PlainTally
import Verif.Props.PlaintextBallot
import Verif.Props.Polynomial
import Verif.Props.PolynomialExact
import Verif.Props.Privacy
import Verif.Props.ProofName
import Verif.Props.Random
import Verif.Props.RandomOracle
import Verif.Props.RecordForgery
import Verif.Props.SampleGenerator
import Verif.Props.SampleGeneratorToy
import Verif.Props.Serialize
import Verif.Props.SerializeElection
import Verif.Props.SerializeElectionToy
import Verif.Props.SharePrivacy
import Verif.Props.ShareProofs
import Verif.Props.Shipped
import Verif.Props.Strategies
import Verif.Props.Tally
import Verif.Props.TallyAny
import Verif.Props.TallyCeremony
import Verif.Props.TallyCounts
import Verif.Props.Time
import Verif.Props.TwoRecords
import Verif.Props.UploadWizard
import Verif.Props.Validator
import Verif.Props.Verify
import Verif.Props.VerifyAny
import Verif.Props.VerifyBallot
import Verif.Props.VerifyDecryption
import Verif.Props.WholeElection
import Verif.Props.ZeroKnowledge
