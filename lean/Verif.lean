import Verif.Base.Outcome
import Verif.Base.Bytes
import Verif.Base.Base64
import Verif.Base.Split
import Verif.Base.Utf8
import Verif.Model.Hash
import Verif.Spec.Base64
import Verif.Spec.Crypto
import Verif.Model.HashLemmas
import Verif.Props.Hash
import Verif.Model.HashTree
import Verif.Spec.Merkle
import Verif.Spec.Malleable
import Verif.Model.HashTreeLemmas
import Verif.Props.HashTree
import Verif.Model.Sig
import Verif.Model.SigLemmas
import Verif.Props.Toy
import Verif.Spec.Ring
import Verif.Props.Sig
import Verif.Base.Flt
import Verif.Model.Piastres.Lock
import Verif.Model.Piastres.Bill
import Verif.Model.Piastres.Expense
import Verif.Model.Piastres.Genesis
import Verif.Model.Piastres.Transaction
import Verif.Model.Piastres.Block
import Verif.Model.Piastres.Link
import Verif.Model.Piastres.Chain
import Verif.Model.Piastres.LockLemmas
import Verif.Props.Lock
import Verif.Spec.Piastres
import Verif.Props.Expense
import Verif.Model.Piastres.ExpenseLemmas
import Verif.Model.Piastres.EntityLemmas
import Verif.Props.Entities
import Verif.Spec.Json
import Verif.Props.Json
import Verif.Model.App.Miner
import Verif.Props.Difficulty
import Verif.Props.Miner
import Verif.Model.Store.Transfers
import Verif.Model.Store.Store
import Verif.Model.Store.Repos
import Verif.Model.Store.Services
import Verif.Model.Store.Lemmas
import Verif.Spec.Store
import Verif.Model.Store.Honest
import Verif.Model.Store.Saves
import Verif.Model.Store.Closed
import Verif.Spec.Persistence
import Verif.Spec.Concurrent
import Verif.Spec.Power
import Verif.Spec.Relay
import Verif.Model.Store.Concurrent
import Verif.Model.Store.Calls
import Verif.Model.Store.Reads
import Verif.Model.Store.Views
import Verif.Model.Store.Glimpses
import Verif.Props.Store
import Verif.Props.StoreChain
import Verif.Model.App.Miners
import Verif.Props.Mining
import Verif.Model.Encryption
import Verif.Props.Encryption
import Verif.Model.Files
import Verif.Spec.Files
import Verif.Props.Files
import Verif.Model.Entities
import Verif.Props.Entity
import Verif.Model.Buckets.Buckets
import Verif.Spec.Buckets
import Verif.Props.Base64
import Verif.Props.Buckets
import Verif.Model.Identities.Memory
import Verif.Model.Identities.Transfers
import Verif.Spec.Identities
import Verif.Props.Identities
import Verif.Model.App.Identities
import Verif.Props.Accounts
import Verif.Model.Peers.Peers
import Verif.Spec.Peers
import Verif.Spec.Url
import Verif.Props.Peers
import Verif.Props.Transfers
import Verif.Props.Url
import Verif.Model.Daemons
import Verif.Props.Daemons
import Verif.Base.BigNat
import Verif.Base.Der
import Verif.Model.Rsa
import Verif.Spec.Rsa
import Verif.Model.RsaLemmas
import Verif.Props.ToyRsa
import Verif.Props.Rsa
import Verif.Model.Kyber.Field
import Verif.Model.Kyber.Group
import Verif.Model.Kyber.Scalar
import Verif.Ed25519.Primes
import Verif.Ed25519.Group
import Verif.Ed25519.Proj
import Verif.Ed25519.Field
import Verif.Ed25519.FieldBytes
import Verif.Ed25519.FieldEnc
import Verif.Ed25519.Powers
import Verif.Ed25519.Base
import Verif.Ed25519.Refine
import Verif.Ed25519.Mult
import Verif.Ed25519.Codec
import Verif.Ed25519.Count
import Verif.Ed25519.ScalarReduce
import Verif.Ed25519.Scalar
import Verif.Ed25519.ScalarField
import Verif.Ed25519.Instance
import Verif.Model.Kyber.Signature
import Verif.Ed25519.Simulate
import Verif.Props.Node
import Verif.Props.Sync
import Verif.Props.Gossip
import Verif.Props.Kinds
import Verif.Props.Nonce
import Verif.Spec.Ed25519
import Verif.Props.Kyber
import Verif.Base.Float64
import Verif.Base.Json.Text
import Verif.Base.Json.TextLemmas
import Verif.Base.Json.Str
import Verif.Base.Json.Time
import Verif.Base.Json.Codec
import Verif.Base.Json.FloatText
import Verif.Model.Json.Tree
import Verif.Model.Json.Transfers
import Verif.Model.Json.Identities
import Verif.Model.Json.Drive
import Verif.Model.Json.Memory
import Verif.Model.Json.Runs
import Verif.Props.Text
import Verif.Model.Floats
import Verif.Model.Json.Objects
import Verif.Props.Objects
import Verif.Spec.Literals
import Verif.Props.Spelling
import Verif.Spec.Ledger
import Verif.Props.Spending
import Verif.Spec.Stored
import Verif.Props.Missing
import Verif.Props.Malleable
import Verif.Props.Floats
import Verif.Props.Sha2
import Verif.Props.Stored
import Verif.Props.Impostor
import Verif.Props.Work
import Verif.Base.Json.Zone
import Verif.Model.Json.Zoned
import Verif.Props.Zones
import Verif.Props.Power
import Verif.Props.Relay
import Verif.Props.Concurrent
import Verif.Props.Turmoil
import Verif.Model.Identities.Records
import Verif.Spec.Records
import Verif.Props.Records
import Verif.Spec.Payments
import Verif.Props.Payments
import Verif.Model.Together
import Verif.Props.Together
import Verif.Spec.Anonymity
import Verif.Props.Anonymity
import Verif.Props.Binding
import Verif.Props.Committed
import Verif.Spec.Alike
import Verif.Props.Alike
import Verif.Props.Exact
import Verif.Spec.Node
import Verif.Spec.Sync
import Verif.Spec.Gossip
import Verif.Spec.Kinds
import Verif.Spec.Panics
import Verif.Spec.Audit
import Verif.Spec.Wire
import Verif.Props.Panics
import Verif.Props.Audit
import Verif.Props.Wire
import Verif.Spec.Inside
import Verif.Props.Exactly
import Verif.Props.Absent
import Verif.Model.Identities.Sealed
import Verif.Props.Sealed
import Verif.Model.Piastres.Addresses
import Verif.Props.Addresses
import Verif.Props.Times
import Verif.Spec.RsaKeys
import Verif.Props.RsaKeys
import Verif.Spec.RsaImported
import Verif.Props.RsaImported
import Verif.Model.RsaCreate
import Verif.Spec.RsaCreate
import Verif.Props.RsaCreate
import Verif.Model.RandPrime
import Verif.Props.RandPrime
import Verif.Model.ProbablyPrime
import Verif.Spec.ProbablyPrime
import Verif.Props.ProbablyPrime
import Verif.Model.Lucas
import Verif.Props.Lucas
import Verif.Model.RsaMany
import Verif.Spec.RsaMany
import Verif.Props.RsaMany
import Verif.Props.RsaManyTexts
import Verif.Spec.RsaTexts
import Verif.Props.RsaTexts
import Verif.Props.AesBlock
import Verif.Props.AesCfb
import Verif.Model.Sha2Object
import Verif.Spec.Sha2Object
import Verif.Props.Sha2Object
import Verif.Model.CfbObject
import Verif.Props.CfbObject
