import Verif.Model.Identities.Memory
import Verif.Model.Store.Services

/-!
# Model of `application/current.go`, `application/identities` and `application/genesis`

`identities.Repository` and `identities.Service` (`domain/memory/identities/sdk.go:46-56`) have no
implementation in the module. `IdentityPort` says what is expected of them: the identities are kept
under their name and seed together with a password; `Retrieve` needs all three; `Insert` and
`Update` store what they are given; failing calls change nothing.

`application/identities.Builder` has no implementation either; it is taken to build a session with
the values it was given. The collections `Wallets()` and `Buckets()` are treated as described in
`Verif.Model.Identities.Memory`; `Buckets().Add` and `Buckets().Delete` change the collection of the
identity they belong to, since they return nothing but an error.
-/

namespace Verif

section
variable [C : Curve]

/-- Identities with their passwords by name and seed. -/
abbrev IdentityView := Bytes → Bytes → Option (Identity × Bytes)

/-- The view with one entry replaced. -/
def IdentityView.set (v : IdentityView) (name seed : Bytes) (e : Option (Identity × Bytes)) :
    IdentityView := fun n s => if n = name ∧ s = seed then e else v n s

/-- `domain/memory/identities/sdk.go:46-56`: an implementation of the repository and the service, with
what its state stands for. -/
structure IdentityPort where
  S : Type
  view : S → IdentityView
  names : ∀ {s n sd i p}, view s n sd = some (i, p) → i.name = n ∧ i.seed = sd
  /-- name, password, seed -/
  retrieve : S → Bytes → Bytes → Bytes → Outcome Identity
  retrieve_ok : ∀ {s n p sd i}, retrieve s n p sd = .ok i ↔ view s n sd = some (i, p)
  insert : S → Identity → Bytes → Outcome Unit × S
  insert_ok : ∀ {s i p}, (insert s i p).1 = .ok () →
    view s i.name i.seed = none ∧
      view (insert s i p).2 = (view s).set i.name i.seed (some (i, p))
  insert_fails : ∀ {s i p}, (insert s i p).1 ≠ .ok () → (insert s i p).2 = s
  /-- hash of the identity to replace, new identity, password, new password -/
  update : S → Hash → Identity → Bytes → Bytes → Outcome Unit × S
  update_ok : ∀ {s h i p q}, (update s h i p q).1 = .ok () →
    ∃ n sd old, view s n sd = some (old, p) ∧ old.hash = h ∧
      view (update s h i p q).2 = ((view s).set n sd none).set i.name i.seed (some (i, q))
  update_fails : ∀ {s h i p q}, (update s h i p q).1 ≠ .ok () → (update s h i p q).2 = s
  delete : S → Identity → Bytes → Outcome Unit × S
  delete_ok : ∀ {s i p}, (delete s i p).1 = .ok () →
    ∃ old, view s i.name i.seed = some (old, p) ∧
      view (delete s i p).2 = (view s).set i.name i.seed none
  delete_fails : ∀ {s i p}, (delete s i p).1 ≠ .ok () → (delete s i p).2 = s

/-- `application/identities/current.go:5-12`: the identity application of an authenticated user. -/
structure Session where
  name : Bytes
  password : Bytes
  seed : Bytes
  deriving DecidableEq

/-- `application/identities/sdk.go:50-60` (`Update`). -/
structure IdentityUpdate where
  seed : Option Bytes := none
  name : Option Bytes := none
  password : Option Bytes := none
  root : Option Bytes := none

variable (P : IdentityPort)

/-- Goes on with a result, or stops with the given state. -/
def withOk {α β S : Type} (o : Outcome α) (s : S) (f : α → Outcome β × S) : Outcome β × S :=
  match o with
  | .ok a => f a
  | .err m => (.err m, s)
  | .crash c => (.crash c, s)

variable [Sha512]

/-- `application/current.go:32-39` (`NewIdentity`). -/
def newIdentity (s : P.S) (name password seed root : Bytes) (now₁ now₂ : Time) :
    Outcome Unit × P.S :=
  withOk (identityNow seed name root [] [] none none now₁ now₂) s fun identity =>
    P.insert s identity password

omit [Sha512] in
/-- `application/current.go:42-55` (`Authenticate`): line 43 gives the seed for the password and the
password for the seed. -/
def authenticate (s : P.S) (name seed password : Bytes) : Outcome Session := do
  let identity ← P.retrieve s name seed password
  .ok ⟨identity.name, password, identity.seed⟩

/-- `application/identities/current.go:35-85` (`Update`): the result, the state and the session
afterwards. -/
def Session.update (a : Session) (s : P.S) (u : IdentityUpdate) (now₁ now₂ : Time) :
    Outcome Unit × P.S × Session :=
  let r := withOk (P.retrieve s a.name a.password a.seed) s fun identity =>
    withOk (identityNow (u.seed.getD identity.seed) (u.name.getD identity.name)
        (u.root.getD identity.root) [] [] none none now₁ now₂) s fun updated =>
      P.update s identity.hash updated a.password (u.password.getD a.password)
  match r.1 with
  | .ok () => (.ok (), r.2, { a with password := u.password.getD a.password })
  | .err m => (.err m, r.2, a)
  | .crash c => (.crash c, r.2, a)

omit [Sha512] in
/-- `application/identities/current.go:88-90` (`Retrieve`). -/
def Session.retrieve (a : Session) (s : P.S) : Outcome Identity :=
  P.retrieve s a.name a.password a.seed

omit [Sha512] in
/-- `application/identities/current.go:93-101` (`Delete`). -/
def Session.delete (a : Session) (s : P.S) : Outcome Unit × P.S :=
  withOk (P.retrieve s a.name a.password a.seed) s fun identity => P.delete s identity a.password

/-! ## Genesis -/

/-- The arguments of `Init` (`application/genesis/current.go:62-71`). -/
structure InitArgs where
  name : Bytes
  password : Bytes
  seed : Bytes
  walletName : Bytes
  amount : UInt64
  blockBase : UInt64
  blockIncrease : Flt
  link : UInt64

/-- `application/genesis/current.go:62-156` (`Init`): the state of the identities and the files
afterwards. `pk` is the new key, `walletBill` the builder of bills of wallets (an interface without
implementation), the times are the readings of the clock. -/
def initGenesis (s : P.S) (σ : Store) (a : InitArgs) (pk : Scalar)
    (walletBill : Bill → Scalar → Time → Outcome WalletBill) (t₁ t₂ now₁ now₂ : Time) :
    Outcome Unit × P.S × Store :=
  match retrGenesis σ with
  | .ok _ => (.err "the genesis block has already been created", s, σ)
  | .crash c => (.crash c, s, σ)
  | .err _ =>
    withOk (P.retrieve s a.name a.seed a.password) (s, σ) fun identity =>
    withOk (appKeyHash (publicKey pk)) (s, σ) fun key =>
    withOk (lockNow (some [key]) t₁) (s, σ) fun lock =>
    withOk (billNow (some lock) a.amount t₁) (s, σ) fun bill =>
    withOk (genesisNow a.blockBase a.blockIncrease a.link (some bill) t₁) (s, σ) fun gen =>
    withOk (walletBill bill pk t₁) (s, σ) fun wb =>
    withOk (walletNow a.walletName none [wb] [] t₁) (s, σ) fun wallet =>
    withOk (identityNow a.seed a.name identity.root (identity.wallets ++ [wallet]) identity.buckets
        (some identity.createdOn) (some t₂) now₁ now₂) (s, σ) fun updated =>
      let r := P.update s identity.hash updated a.password a.password
      withOk r.1 (r.2, σ) fun _ =>
        let w := (saveGenesis gen).exec σ
        (w.1, r.2, w.2)

/-! ## Buckets of an identity -/

omit [Sha512] in
/-- `application/identities/buckets/application.go:97-116`: the second half of `Add`, for the bucket
that was built (`Verif.Model.Buckets.Buckets` has the first half). The identity is changed in place:
its hash stays. -/
def Session.addBucket (a : Session) (s : P.S) (b : IdBucket) : Outcome Unit × P.S :=
  withOk (P.retrieve s a.name a.password a.seed) s fun identity =>
    P.update s identity.hash { identity with buckets := identity.buckets ++ [b] } a.password a.password

omit [Sha512] in
/-- `application/identities/buckets/application.go:119-139` (`Delete`): paths are compared as texts. -/
def Session.deleteBucket (a : Session) (s : P.S) (path : Bytes) : Outcome Unit × P.S :=
  withOk (P.retrieve s a.name a.password a.seed) s fun identity =>
    P.update s identity.hash
      { identity with buckets := identity.buckets.filter fun b => b.absolutePath ≠ path }
      a.password a.password

/-! ## Transactions of an identity -/

omit [Sha512] in
/-- `application/identities/piastres/current.go:99-106`: the keys of a bill that are taken into the
new ring; the loop ends when `maxIndex >= index + 1`. -/
def ringKeysFrom (maxIndex : Int) : Nat → List C.Pt → List C.Pt
  | _, [] => []
  | index, p :: ps => if maxIndex ≥ index + 1 then [] else p :: ringKeysFrom maxIndex (index + 1) ps

/-- A fee to pay, with what the code draws for it: the random number, the key for the remaining
amount, what shuffling does, and the readings of the clock. -/
structure FeeRun where
  amount : UInt64
  lock : Lock
  random : Nat
  remaining : Scalar
  shuffle : List C.Pt → List C.Pt
  time₁ : Time
  time₂ : Time

/-- `application/identities/piastres/current.go:81-158`: one fee, paid with `walletBills`. -/
def payFee (additional : Int) (f : FeeRun) (walletBills : List WalletBill) : Outcome Expense :=
  if additional ≤ 0 then .crash .invalidArgument
  else if walletBills.length = 0 then .crash .divideByZero
  else do
    let maxIndex : Int := ((f.random / walletBills.length : Nat) : Int)
    let ring := walletBills.flatMap fun b => ringKeysFrom maxIndex 0 b.ringKeys
    let ring := f.shuffle (ring ++ [publicKey f.remaining])
    let keys ← mapO appKeyHash ring
    let remaining ← lockNow (some keys) f.time₁
    let content ← contentNow f.amount (some (walletBills.map WalletBill.bill)) (some f.lock)
      (some remaining) f.time₂
    let signatures ← mapO (fun b : WalletBill => ringSign b.pk content.hash.str b.ringKeys) walletBills
    expenseNow (some content) (some signatures)

/-- The parts of an identity's collections that `Bucket` uses: `Buckets().Fetch`, `Wallets().Fetch`
and `Wallets().Transact`, interfaces without implementation. -/
structure IdentityParts where
  fetchBucket : Identity → Bytes → Outcome IdBucket
  fetchBills : Identity → UInt64 → Outcome (List WalletBill)
  transact : Identity → Transaction → Outcome Identity

/-- `application/identities/piastres/current.go:72-167`: the transaction that `Bucket` makes. -/
def bucketTransaction (I : IdentityParts) (additional : Int) (identity : Identity) (path : Bytes)
    (fees : List FeeRun) (now : Time) : Outcome Transaction := do
  let bucket ← I.fetchBucket identity path
  let expenses ← mapO (fun f : FeeRun => do
    let bills ← I.fetchBills identity f.amount
    payFee additional f bills) fees
  trxNow none (some bucket.hash) expenses now

/-- `application/identities/piastres/current.go:64-178` (`Bucket`). -/
def Session.bucket (a : Session) (I : IdentityParts) (additional : Int) (s : P.S) (path : Bytes)
    (fees : List FeeRun) (now : Time) : Outcome Unit × P.S :=
  withOk (P.retrieve s a.name a.password a.seed) s fun identity =>
  withOk (bucketTransaction I additional identity path fees now) s fun trx =>
  withOk (I.transact identity trx) s fun identity' =>
    P.update s identity.hash identity' a.password a.password

end

end Verif
