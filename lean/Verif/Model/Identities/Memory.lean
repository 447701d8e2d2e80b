import Verif.Model.Buckets.Buckets
import Verif.Model.Files

/-!
# Model of `domain/memory/identities`

`wallets.Wallets`, `buckets.Buckets` and their builders (`wallets/sdk.go`, `buckets/sdk.go`) and the
bills of a wallet (`wallets/wallet/bills/sdk.go`) are interfaces without implementation in the module.
Collections are modelled by the list `All()` returns, which is taken to be the list the builder was
given; building them is taken not to fail. Followed buckets are not modelled.
-/

namespace Verif

section
variable [C : Curve]

/-- `wallets/wallet/statements/entries/entry.go:11-16`; the empty description stands for none. -/
structure Entry where
  hash : Hash
  name : Bytes
  trx : List Transaction
  description : Bytes
  createdOn : Time

/-- `wallets/wallet/statements/statement.go:11-15`; the empty list stands for nil. -/
structure Statement where
  hash : Hash
  incoming : List Entry
  outgoing : List Entry
  createdOn : Time

/-- What the interface `wallets/wallet/bills/sdk.go:23-29` gives access to. -/
structure WalletBill where
  hash : Hash
  bill : Bill
  pk : Scalar
  ringKeys : List C.Pt
  createdOn : Time

/-- `wallets/wallet/wallet.go:12-18`. -/
structure Wallet where
  hash : Hash
  name : Bytes
  statement : Statement
  bills : List WalletBill
  description : Bytes
  createdOn : Time

/-- `buckets/bucket/bucket.go:12-17`; the private key (RSA) is represented by its encoding. -/
structure IdBucket where
  hash : Hash
  bucket : Bucket
  absolutePath : Bytes
  pk : Bytes
  createdOn : Time

/-- `identity.go:12-19`. -/
structure Identity where
  hash : Hash
  seed : Bytes
  name : Bytes
  root : Bytes
  wallets : List Wallet
  buckets : List IdBucket
  createdOn : Time
  lastUpdatedOn : Time

variable [Sha512]

/-- `wallets/wallet/statements/entries/builder.go:67-103` (`Now`). -/
def entryNow (name : Bytes) (trx : Option (List Transaction)) (description : Bytes)
    (createdOn : Time) : Outcome Entry :=
  if name = [] then .err "the name is mandatory in order to build an Entry instance"
  else
    match trx with
    | none => .err "the []Transaction are mandatory in order to build an Entry instance"
    | some trx =>
      if trx.length ≤ 0 then
        .err "there must be at least 1 Transaction in order to build an Entry instance"
      else
        let data := [name] ++ trx.map fun x => x.hash.bytes
        .ok ⟨fromMultiBytes data, name, trx, description, createdOn⟩

/-- `wallets/wallet/statements/builder.go:58-103` (`Now`). -/
def statementNow (incoming outgoing : List Entry) (createdOn : Time) : Outcome Statement :=
  let data := (incoming.map fun e => e.hash.bytes) ++ outgoing.map fun e => e.hash.bytes
  .ok ⟨fromMultiBytes data, incoming, outgoing, createdOn⟩

/-- `wallets/wallet/builder.go:76-123` (`Now`): line 81 refuses a statement that is given, line 91
uses one that is not. -/
def walletNow (name : Bytes) (statement : Option Statement) (bills : List WalletBill)
    (description : Bytes) (createdOn : Time) : Outcome Wallet := do
  Outcome.guardNot name.isEmpty "the name is mandatory in order to build a Wallet instance"
  Outcome.guardNot statement.isSome "the statement is mandatory in order to build a Wallet instance"
  let statement ← Outcome.deref statement
  let data := [name, statement.hash.bytes] ++ bills.map fun b => b.hash.bytes
  .ok ⟨fromMultiBytes data, name, statement, bills, description, createdOn⟩

omit C [Sha512] in
/-- The text of an absolute path. -/
def pathText (p : Path) : Bytes := if p = [] then [47] else (p.map fun e => 47 :: e).flatten

omit C in
/-- `buckets/bucket/builder.go:74-108` (`Now`) in working directory `cwd`: `filepath.Abs`, `os.Stat`.
The bucket and the key are not part of the hash. -/
def idBucketNow (cwd : Path) (d : Disk) (bucket : Option Bucket) (absolutePath : Bytes)
    (pk : Option Bytes) (createdOn : Time) : Outcome IdBucket := do
  let bucket ← Outcome.require "the bucket is mandatory in order to build a Bucket instance" bucket
  Outcome.guardNot absolutePath.isEmpty
    "the absolutePath is mandatory in order to build a Bucket instance"
  let pk ← Outcome.require "the PrivateKey is mandatory in order to build a Bucket instance" pk
  let path := absolute cwd absolutePath
  Outcome.guardNot (d.missing path) "the absolutePath does not exists"
  .ok ⟨fromBytes (pathText path), bucket, pathText path, pk, createdOn⟩

/-- The bytes an identity is hashed from, `builder.go:118-134`. -/
def identityData (seed name root : Bytes) (wallets : List Wallet) (buckets : List IdBucket) :
    List Bytes :=
  [seed, name, root] ++ (wallets.map fun w => w.hash.bytes) ++ buckets.map fun b => b.hash.bytes

/-- `builder.go:105-167` (`Now`); `now₁` and `now₂` are the readings of the clock in the builder of
mutable entities. -/
def identityNow (seed name root : Bytes) (wallets : List Wallet) (buckets : List IdBucket)
    (createdOn lastUpdatedOn : Option Time) (now₁ now₂ : Time) : Outcome Identity := do
  Outcome.guardNot seed.isEmpty "the seed is mandatory in order to build an Identity instance"
  Outcome.guardNot name.isEmpty "the name is mandatory in order to build an Identity instance"
  Outcome.guardNot root.isEmpty "the root is mandatory in order to build an Identity instance"
  let hash := fromMultiBytes (identityData seed name root wallets buckets)
  let mutable ← (MutableBuilder.now ⟨some hash, createdOn, lastUpdatedOn⟩ now₁ now₂).1
  .ok ⟨mutable.hash, seed, name, root, wallets, buckets, mutable.createdOn, mutable.lastUpdatedOn⟩

end

end Verif
