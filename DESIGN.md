# Design: a machine-checked model of rod-network

Source: `/repo` (Go, read as text, never built). Model and proofs: Lean 4.33 + Mathlib, Lake
project in `lean/`.

## 1. Layers of the model

| Lean module | Models |
| --- | --- |
| `Verif/Base/*` | `Outcome` (Go result: value, error, crash), byte strings, hex, decimal printing, base64, splitting, UTF-8, floats |
| `Verif/Model/Hash` | `libs/hash` |
| `Verif/Model/HashTree` | `libs/hashtree` |
| `Verif/Model/Sig` | `libs/cryptography/pk/signature` |
| `Verif/Base/BigNat`, `Der`, `Verif/Model/Rsa` | `libs/cryptography/pk/encryption` and `public`, with `crypto/rsa` and PKCS #1 |
| `Verif/Model/Encryption`, `Files`, `Entities` | `libs/cryptography/encryption`, `libs/file`, `libs/entities` |
| `Verif/Model/Piastres/*` | `domain/memory/piastres/*`: builders, JSON forms, adapters |
| `Verif/Model/Store/*` | `domain/transfers/piastres/*`, repositories and services of both layers, as programs over files |
| `Verif/Model/App/*` | `application/miners`, `application/identities`, `application/genesis`, `application/current.go` |
| `Verif/Model/Buckets`, `Identities`, `Peers` | `domain/*/buckets`, `domain/*/identities`, `domain/*/peers` |
| `Verif/Model/Daemons` | `infrastructure/daemons` |
| `Verif/Model/Together` | application calls and daemon rounds, cut between retrieving and updating, interleaved |
| `Verif/Base/Json/*` | `encoding/json` on texts: the grammar, string, number and time literals, structures with tags |
| `Verif/Model/Json/*` | the tags of all JSON structures; the files of the store as bytes |
| `Verif/Spec/*` | the small independent specifications used in the statements |
| `Verif/Props/*` | the property theorems, each with a non-vacuity `example` |

Every definition cites file and lines of `/repo`; simplifications are stated in that comment.

### Conventions

* Go `string` and `[]byte` are `List UInt8`; `uint64` and `uint` are `UInt64` (64-bit platform);
  `int(x)` of a `uint64` is the two's complement reinterpretation.
* A Go call returning `(T, error)` is an `Outcome T`: `ok v`, `err msg`, or `crash c` where `c` says
  why the process dies (nil dereference, index out of range, stack overflow). A nil pointer or
  interface is `Option.none`. A nil slice is distinguished from an empty one where the code does.
* SHA-512 is an arbitrary function from byte strings to 64-byte strings; nothing is assumed about
  it. Commitment properties never assume injectivity (no such function exists); they conclude
  "equal content, or these two explicit, different preimages have the same hash".
* SHA-256-to-scalar, AES as a block function, the clock, random IVs and nonces are parameters.
* The edwards25519 group is an arbitrary structure whose scalars are a field (raw 32-byte scalars
  plus reduction), with the group laws assumed only on multiples of the base point (true for the
  prime order subgroup; decoded points outside of it stay unconstrained).
* `time.Time` is an integer. JSON is modelled as text: `json.Marshal` and `json.Unmarshal` of every
  structure of the module are functions on bytes, and that they round-trip is proved. The store
  keeps structures; runs on files of bytes are proved to be runs on structures.
* `float64` is `nan | ±inf | finite rational`; `strconv.FormatFloat(x,'f',12,64)` is exact decimal
  rounding of the rational.
* Service functions are `Prog` terms: trees of file reads and writes. Their semantics gives the
  fault-free run, all crash points, all schedules of failing and torn writes, and interleavings.
* Each entity kind has its own base directory (the `file.Repository` handed to each transfer
  repository); files are addressed by relative path.

## 2. Property plan

Method abbreviations: *ind* = induction over lists / trees / recursion depth; *inv* = invariant over
all reachable states of the program logic; *red* = reduction to an explicit hash collision;
*neg* = negation proved with a witness (code disagrees with the expectation), kept with the part
that does hold as `_partial`.

| Id | Modelled | Proof |
| --- | --- | --- |
| C01 | hash String/FromString/Compare/Path | hex round trip, ind over bytes |
| C02 | hex decoder, FromString | ind over the string, characterise failure |
| C03 | FromBytes | cases on length |
| C04 | FromMultiBytes | equality of concatenations + red + neg witness |
| C05 | block, leaves, tree | ind on the exponent of the padded length |
| C06 | block with empty data | evaluation for all hash functions: panic (neg) |
| C07 | tree heads | ind on height, red |
| C08 | padding, 64-byte identity | universally quantified witnesses (neg) |
| C09 | compact, JSON forms | ind on tree |
| C10 | Order | map lookup lemmas, permutations |
| C11 | compact JSON, leaves.HashTree | ind on number of leaves |
| C12 | Sign/PublicKey | field algebra in the exponent |
| C13 | Verify | field algebra |
| C14 | RingSign/Verify | loop invariant around the ring |
| C15 | String/ToSignature | split/join lemmas, hex, base64 |
| C16 | Verify on empty ring, ToVerification | neg |
| C17 | Verify with short scalar list | exact crash condition (neg) |
| C18 | ToVerification | ind over ring |
| C19 | lock builder | list lemmas |
| C20 | Unlock | ind over ring |
| C21 | Unlock + RingSign | from C14 and set equality |
| C22 | Unlock with FromString locks | red (neg) |
| C23 | bill builder | injectivity of decimal printing, red |
| C24 | content builder | uint64 arithmetic |
| C25 | content builder | arithmetic, neg witness with a repeated bill |
| C26 | expense builder | ind over bills |
| C27 | expense builder | neg: replay theorem |
| C28 | content hash | neg witness family + red |
| C29 | JSON structs | composition of round trips |
| C30 | JSON decoders | builder post-conditions |
| C31 | Save/Retrieve programs | program logic |
| C32 | Save programs | crash invariant |
| C33 | Save programs | no write when retrievable |
| C34 | Save programs | crash invariant + rerun |
| C35 | Save programs | crash invariant |
| C36 | genesis Save | inv over histories; interleaving witness (neg) |
| C37 | Retrieve | neg witness; inv over Save histories |
| C38 | transaction storage | neg |
| C39 | chain Retrieve/Insert | neg |
| C40 | chain Update | neg |
| C41 | state Save | neg |
| C42 | state file path | arithmetic on code points, neg |
| C43-C45 | link, block, chain builders | decimal injectivity, red |
| C46-C48 | miner search with fuel | ind on fuel |
| C49 | mined builders | neg |
| C50 | difficulty in float64 arithmetic (rounding, overflow, fused or not) | ind on count; error of rounding; neg |
| C51 | link miner application | inspection of all paths |
| C52-C54 | CFB mode, base64 | ind over blocks / triples |
| C55 | file store | ind over histories |
| C56 | chunking loop | ind / arithmetic |
| C57 | entity builders | cases |
| C58 | wallet builders | neg, all inputs |
| C59-C61 | identity applications and builder | neg + red |
| C62 | bucket transfer objects | neg |
| C63 | peer storage | neg + set equality |
| C64, C65 | daemons | neg over all heights / schedules |
| C66 | genesis builder | neg + red |
| C67 | mined link adapter | neg + round trip |
| C68, C69 | statements, transactions | neg |
| C70 | `Order` on foreign data | neg + permutation lemmas |
| C71, C72 | texts of signatures and keys | hex and base64 round trips |
| C73, C74 | lock and expense hashes | red, neg for locks |
| C75 | genesis builder and NaN | neg |
| C76, C77 | state hash, bill hash | red, neg |
| C78, C79 | chain Update, block Save | interrupted runs, neg |
| C80 | miners on the application's own chain | neg, all stores |
| C81, C82 | file store paths, the store used in tests | path normalisation, ind over histories |
| C83, C84 | directory to bucket, bucket hashes | ind over trees, red + neg |
| C85 | ring signature verification | exact characterisation, ind around the ring |
| C86-C88 | identity, statement, bill, cancel storage | composition of round trips, map lemmas |
| C89-C93 | identity buckets, sessions, fees | contract of the repository, red + neg |
| C94 | lookups in buckets | ind over maps filled in order |
| C95, C96 | peer URLs, peers file | parsing lemmas in both directions |
| C97-C100 | daemons | ind over schedules |
| C101 | OAEP encryption and decryption | Fermat, remainder theorem, padding lemmas |
| C102-C104 | PKCS #1 encodings, key hash | round trips in both directions, the exact files of keys (`Spec/RsaKeys`), red, neg |
| C105 | imported private keys | neg |
| C106 | creating and deleting identities | contract of the repository |
| C107 | fees of bucket transactions, recording | inversion of the builders |
| C108 | URLs of peers | grammar, both directions |
| C109 | transferred buckets, chunks and states | exact conditions and fields, hash tree leaves |
| C110 | paths of identity buckets | cleaning is idempotent and independent of the working directory |
| C111, C112, C116, C120 | signatures on the vendored curve | simulation of the limb model by the abstract one, limb bounds, group law |
| C113-C115 | texts of public keys | square roots, exact conditions, neg |
| C117, C118 | reused secret numbers | ind around the ring, field algebra, neg |
| C119 | public keys | windowed multiplication computes multiples, order of the base point |
| C121 | owners of public keys | number of points of the curve: at most 2p, divisible by 8L, less than 16L |
| C122 | private keys that work | exact bound from the lost digit, both directions |
| C123 | JSON texts of stored objects | round trip through grammar, literals and tags |
| C124 | cut and overlong files | no prefix of an object is a JSON text |
| C125 | files of bytes | simulation: runs on bytes are runs on structures, and back for writable objects |
| C126 | other texts | folding the members into the structure, neg |
| C127 | the rest of a fee | case split on the random number, neg; independence of the private key |
| C128 | texts of entities and trees | round trip through grammar and structures, cut texts |
| C129 | trees that were read | forged head, missing node, neg; rebuilding |
| C130 | spellings of strings | induction on the spelling against RFC 8259; times neg |
| C131 | existence of spent bills | made-up bill accepted for every chain, neg; opened and covered |
| C132 | double spending | second expense without a key, neg; same lock and amount |
| C133 | identity of bills | equal payments, payment to oneself, neg; binding |
| C134 | coherence of a chain | exact acceptance condition; exchanged parts, neg |
| C135 | changed files | unused hashes, copied files, missing members, neg; what is refused |
| C136 | impostors | locks, transactions, bills and blocks displaced by others with the same hash, neg; what was saved first stays |
| C137 | saves at the same time | invariant over all interleavings of any number of calls, file by file, with files seen empty while they are written; every call ends; neg for equal hashes |
| C138 | retrievals among saves | invariant over rounds of interleaved calls with failing writes and kills; retrievals read their files at different moments |
| C139 | services of entries, statements, wallet bills, cancels on the disk | ind over histories; names of files are injective; composition of round trips |
| C140 | from keys to blocks, chains of payments | composition of C21, C24, C26, C29, C128; ind over payees |
| C141 | lost updates of identities | simulation of interleavings, invariant over what calls hold; witness |
| C142 | lost updates of peers | the same; C63, C99 for one call |
| C143 | anonymity of ring signatures | bijection between draws and accepted signatures; ind around the ring |
| C144 | hash of a chain against all its parts | structural relation `Alike` (Spec/Alike); induction over lists of parts, exact up to `Clash`; neg |
| C145 | which files make retrievals panic | exact case analysis per kind; invariant `Store.Sturdy` (Spec/Panics) over interleavings with faults |
| C146 | auditing the money in blocks | relation `Audit` (Spec/Audit): induction with balance of hashes, totals below 2^64, exact counting condition |
| C147 | which texts of other nodes panic | exact case analysis per structure in reading order (Spec/Wire), whole structures never panic |
| C148 | members left out of texts and identity files | folding the members into the structure, then the decoders on the result, neg |
| C149 | encrypted identity files | induction on the blocks of the cipher, then C52, C123 and C148, neg |
| C150 | files of addresses | C139 for the history, C29 and C128 for the text, C144 (`Address.Alike`) for the hash, neg |
| C151 | number of files that a retrieval reads | C138's reads one file at a time; exact by the structure of the object, bounded for all files, neg |
| C152 | times of other zones | times with an offset (`Base/Json/Zone`), the member `created_on` with its zone in every kind of file (`Model/Json/Zoned`), neg |
| C153 | power failures | every file absent, unreadable or with an earlier content of its own (`Spec/Power`, `Props/Power`), any concurrent calls before, neg |
| C154 | links between nodes | encode, decode, save, retrieve over any number of nodes (`Spec/Relay`, `Props/Relay`), ind over the nodes, neg |
| C155 | all applications together | transition system of calls (`Spec/Node`, `Props/Node`), ind over the calls, composition of C58, C39 and C91, neg |
| C156 | all entities, `Spec/Kinds` | lengths of hashed texts, C144's equations of hashes, neg |
| C157 | peer daemons of a whole network (`Spec/Gossip`) | infinite courses with overlapping rounds, invariant over time, ind over paths, fairness, neg |
| C158 | chain daemons of a whole network (`Spec/Sync`) | courses with overlapping rounds, ind over time, neg |
| C159 | ring signatures, expenses, transactions (`Spec/Malleable`) | turning the ring of challenges, C74's equation of hashes, neg |
| C160 | SHA-512 on bytes (`Model/Sha2`) | blocks of a padded text, registers read back from the hash |
| C161 | builders and JSON forms of the piastres (times), store | objects with a function applied to all times, `timed` |
| C162 | imported private keys (`Model/Rsa`) | exponents that cancel modulo products of primes, pigeonhole for the neg |
| C163 | creation of RSA keys (`Model/RsaCreate`), drawing of primes (`Model/RandPrime`, `Model/ProbablyPrime`, `Model/Lucas`) | sizes of products, ind over the rounds; strong probable primes in the field of `n` elements, Lucas sequences in its closure |
| C164 | private keys with any number of primes (`Model/RsaMany`) | remainder theorem by ind over the primes |
| C165 | which texts are decrypted to a message | padding and power are injective |
| C166 | changed encrypted texts, with AES | every step of AES is injective, ind over the blocks |
| C167 | hash objects that are written to in pieces | inv: whole blocks are in the registers, the rest waits; ind over the calls |

## 3. Trusted base

### 3.1 Checker and axioms

The Lean 4.33 kernel checks every theorem. Proofs use no `sorry`, no `native_decide`, no `bv_decide`
and no axioms beyond Lean's own three. Which theorem of the manifest depends on which of them is listed
in section 7. `decide +kernel` is used for facts about the 256 bytes and for arithmetic in examples; it is evaluated by the kernel.

### 3.2 Assumptions that are part of the statements

They are type classes or structures, so every theorem that needs one says so, and each has an instance in
an `example` (`toySha`, `toyCurve`, `toyCipher`, `referencePort`, `toyPeersPort`, `toyChainPort`, ...).

| Name | Stands for | Assumed |
| --- | --- | --- |
| `Sha512` | `crypto/sha512` | a function to 64 bytes |
| `Curve` | kyber edwards25519, SHA-256 to scalar | a field of scalars; reduction; encodings of 32 bytes that decode to the same point; `add`, `sub` agree with the field on multiples of the base point; `mul` multiplies by the number the code really uses (`multiplier`: the scalar, minus its top signed base-16 digit times 16^63 when that digit exceeds 8, `ge.go:389-489`); multiples of the base point are equal only for equal field elements. All of this is proved of the vendored code: `Ed25519/Instance.lean` builds the instance `edCurve` from the group of the curve, `Ed25519/Simulate.lean` shows that the signature package on limbs computes in it, so C111-C120 need only `Sha256` |
| `Cipher` | SHA-256 and AES-256 | lengths of their results |
| `FloatText` | `strconv.FormatFloat` in `encoding/json` | writes a number literal whose nearest float64 is the number; `FloatText.decimal` is an instance |
| `Machine` | what Go leaves to the compiler and processor in `difficulty` | nothing: whether a multiplication and an addition are fused, and what `uint` makes of an out of range float64 |
| `IdentityPort` | `identities.Repository`, `identities.Service` (no implementation in the module) | identities are kept under name and seed with a password; failing calls change nothing |
| `PeersPort.Lawful` | `peers.Repository`, `peers.Service` of the memory package (no implementation) | what was saved is retrieved; a failed save changes nothing |
| `ChainPort.Lawful` | `application/chains` of the local node (no implementation) | an accepted link is the head; a refused one changes nothing |
| `Sha256` | SHA-256 in OAEP and signatures | 32 bytes |
| `RsaKey.Proper` | keys from `rsa.GenerateKey` | two different odd primes, inverse exponents; proved of created keys in C163 |
| `Drawn` | `rand.Prime` | primes of the length asked for, with the two highest bits set; proved of `rand.Prime` (`C163_pairs_drawn`) for a test of primes that accepts only primes |
| `MapOrder` | the order of Go maps | any permutation |

`Model/Sha2` and `Model/Aes` write out SHA-256, SHA-512 and AES-256, `Model/Fips` makes them instances of `Sha512`,
`Sha256` and `Cipher`, and `Ed25519/Instance` makes the vendored curve one of `Curve`, so all theorems apply to the
functions the code calls. Examples in `Props/Sha2` are computed by the kernel and agree with the published values
and with OpenSSL. The executable parts of the model were also compared with OpenSSL outside of the proofs: hashes
of texts around the block lengths, ed25519 public keys, RSA keys in PKCS #1 form and an OAEP text agree.

No theorem assumes that SHA-512 has no collisions. A statement about hashes concludes that the contents
are equal, or names two different byte strings with the same hash (`ShaCollision`), or a byte string of
64 bytes that is its own hash and at the same time the hash of something else (`ShaPassThrough`).

### 3.3 Assumptions that are part of the modelling

* Integers: `int` and `uint` have 64 bits.
* Time: `time.Time` is the number of nanoseconds since the year 1, in UTC; the store model has a truncation
  parameter for times where it matters (`timed`).
* JSON: `encoding/json` (Go 1.13 to 1.15) is modelled as functions on bytes in `Base/Json` and `Model/Json`:
  the grammar, escapes and UTF-8 replacement, numbers, RFC 3339 times, structures with tags, letter case of
  member names, repeated, absent and `null` members. Proved there: what is written is read back, no strict
  prefix of a written object is a JSON text. Elements of an array that occurs twice are read into what the
  first one left. Left out: the limit of 10000 nested levels; what a third occurrence of a shrinking array
  finds behind its end. Times are written in UTC, as the module makes them; times received in other zones are
  followed into the files in `Base/Json/Zone` and `Model/Json/Zoned` (C152).
* Floats: `float64` is NaN, an infinity or a rational; operations round to nearest even and overflow
  (`Base/FltArith`). `nextPowerOfTwo` in `libs/hashtree` and `chunkLoops` use floats, the model uses integers.
  `Model/Floats` proves that this is the same: for fewer than 2^44 blocks and any `math.Log` within two units in
  the last place (`nextPowerFloat_eq`), and for fewer than 2^53 bytes and a positive chunk size of at most 2^53
  (`chunkLoopsFloat_eq`).
* Files: the content of a file is replaced by a write, a strict prefix of it (interrupted write), or
  untouched (failed write). Losses after a successful write (no `fsync` in the code) are
  modelled in `Spec/Power` (C153) only; there a damaged file is never a JSON text of the right form. Not
  modelled: paths
  that are directories, creation of missing directories in the typed store, NUL bytes in names, symbolic
  links, permissions.
* Concurrency: for the store any number of calls whose steps interleave, where a retrieval reads one file
  per step and a write is the two steps of opening (and emptying) and of writing the content
  (`Model/Store/Reads`, `Spec/Concurrent`, C137, C138; reading one file is one step, writes fail in C138 only), and an interleaving of whole
  file operations (`C36_concurrent_saves_neg`); daemons
  take turns at ticks and `Stop` calls; a round is not interrupted by `Stop`. Data races on plain variables
  are not modelled.
* `url.Parse`: Go 1.13 to 1.15, for URLs with a scheme.
* Memory is unbounded; the stack is a parameter where recursion is unbounded (mining, hash tree).
* Random choices (IVs, nonces, shuffles, new keys) and readings of the clock are arguments.

## 4. What is modelled

| Package | Modelled | Left out |
| --- | --- | --- |
| `libs/hash` | all | |
| `libs/hashtree` | all | |
| `libs/cryptography/pk/signature` | all | choice of random numbers (arguments) |
| `libs/cryptography/encryption` | all; `crypto/cipher` CFB streams with their buffers in `Model/CfbObject` | |
| `libs/cryptography/pk/encryption`, `public` | all | `crypto/rsa` (OAEP, blinding, remainder theorem) and the PKCS #1 encodings are written out as of Go 1.13, SHA-256 is a parameter; `rsa.GenerateKey` is written out over the primes that `rand.Prime` returns (`Model/RsaCreate`), `rand.Prime` over the bytes of the source (`Model/RandPrime`), `ProbablyPrime` in `Model/ProbablyPrime` and `Model/Lucas` (with `big.Jacobi`; the bases are arguments); keys with more than two primes are in `Model/RsaMany`; nil or negative numbers are left out |
| `libs/file` | disk repository and service, encrypted ones, the store used in tests | `sdk.go:8-15`, which returns nil builders |
| `libs/entities` | all | |
| `domain/memory/piastres/*` | builders, accessors used, JSON forms, adapters, repositories, services | `test_helper.go`; repository methods that call the same function in a loop |
| `domain/transfers/piastres/*` | objects, builders, JSON forms, repositories, services | `test_helper.go` |
| `domain/memory/identities/*` | builders | interfaces without implementation (`wallets`, `buckets`, `bills`) |
| `domain/transfers/identities/*` | objects, builders, JSON forms, identity files, repositories and services | |
| `domain/memory/buckets/*`, `domain/transfers/buckets/*` | builders, lookups, adapters, repositories, services | |
| `domain/*/peers` | all | |
| `application` | `NewIdentity`, `Authenticate`, `Init`, `Update`, `Retrieve`, `Delete`, buckets `Add` and `Delete`, piastres `Bucket`, miners, peers | constructors, interfaces |
| `infrastructure/daemons/*` | all three | |
| `infrastructure/clients/*` | parameters | interfaces without implementation |
| `vendor/go.dedis.ch/kyber/v3/group/edwards25519` | `fe.go`, `ge.go`, `scalar.go`, `point.go` as far as the signature package uses them: field elements on ten limbs with their carries (`int32`, `int64` wrap-around included), points in four representations, windowed multiplication, point encoding, scalars on 21-bit limbs, inversion; `random.Int` | `math/big` (numbers), `Embed`, `Data`, hashing to points, `ScalarMult` variants with variable time; BLAKE2 stream (its output is an argument) |
| `crypto/sha256`, `crypto/sha512`, `crypto/aes` | the functions, as in FIPS 180-4 and 197; the objects with `Write`, `Sum` and `Reset` (`Model/Sha2Object`) | implementations in assembly |
| other `vendor/*` | assumptions of 3.2 | |

## 5. Where the code disagrees with what one would expect

Every item is a theorem that ends in `_neg`; its comment says what was expected.

* Hashes: `FromBytes` returns inputs of 64 bytes unchanged, so hashes of hashes are ambiguous (C03, C08, C73);
  rows are concatenated without separators (C04, C28, C61, C66, C68, C69, C84); times are in no hash
  (C69, C77).
* Hash trees: no data panics (C06), padding is ambiguous (C08), compact forms are not checked against their
  head (C11), `Order` ignores data it does not need (C70).
* Signatures: `Verify` accepts signatures nobody made (C13); an empty ring verifies (C16); short signatures
  panic (C17); signatures of an expense can be used again (C27) and changed by others, which changes its hash (C159); no time is in a hash or compared with another one (C161); one secret number is used for several
  signatures, which gives the private key away (C117) and names the signer of a ring signature (C118); public
  keys have several texts (C114), for one without private key everybody can sign (C115), and seven accepted
  keys out of eight have no private key (C121).
* Locks made by the application cannot be opened (C22), so fees cannot be paid (C91).
* Expenses may list a bill twice (C25).
* Storage: transactions lose their address (C38), the chain cannot be inserted and read back (C39, C40, C80),
  states are never stored (C41), heights share paths (C42), a torn update loses the chain (C78), buckets
  cannot be stored (C62), a received time zone of 100 hours makes a file unreadable (C152), peers cannot be read (C63), wallets cannot be built (C58).
* Mining: any text is accepted as mined (C49), a difficulty of 2^63 or more asks for nothing (C46), mined
  links have index 0 (C51), impossible difficulties end in a stack overflow (C48).
* Encryption does not authenticate (C53), so the wallets can be cut off an encrypted identity (C149); paths escape the base directory (C81).
* Identities: updates drop wallets and buckets (C59), password and seed are swapped in `Authenticate` (C60),
  sessions lose their identity (C90), hashes cover paths instead of contents (C89, C92).
* Nothing is locked between reading and writing: overlapping changes of identities and peers are lost (C141,
  C142).
* RSA: a private key with a common divisor of its factors is accepted and panics when used (C105); one with
  factors that are not prime is accepted and decrypts wrongly (C162); short keys are created that encrypt nothing (C163); an
  encrypted text may lose zeros at its beginning (C165); public
  keys have several encodings (C104).
* Daemons: `Stop` does not stop (C65), synchronisation applies the local head again and never the remote head
  (C64), ends after the first time (C97), and any failing peer ends it (C98).

## 6. Out of scope

HTTP clients (interfaces only), test helpers, constructors that only pass
arguments on.

## 7. Axioms per theorem

Output of `#print axioms` for the theorems of the manifest.

* `propext` (18 theorems): `C01_string_round_trip`, `C01_compare_iff_string`, `C02_total`, `C02_case_insensitive`, `C02_value`, `C03_fromBytes`, `C03_idempotent`, `C04_concatenation_only`, `C04_rows_not_separated_neg`, `C04_binding`, `C57_mutable_times_ordered`, `C57_builder_remembers`, `C57_immutable`, `C57_immutable_builder_remembers`, `C62_data_survives_partial`, `C65_returned_daemon_is_quiet`, `C109_state_accepted_iff`, `C141_alone_is_the_call`
* `Quot.sound`, `propext` (112 theorems): `C01_string_shape`, `C01_path_shape`, `C01_path_iff`, `C09_full_round_trip`, `C10_order_sound`, `C11_compact_head_unchecked_neg`, `C11_missing_node_panics_neg`, `C15_text_round_trip`, `C15_text_round_trip_canonical`, `C16_empty_ring_verifies_neg`, `C17_parsing_total`, `C19_builder_accepts_iff`, `C19_built_lock`, `C22_app_lock_is_built`, `C29_lock_round_trip`, `C29_address_round_trip`, `C29_reduced_of_canonical`, `C42_heights_clash_neg`, `C42_code_points_injective_partial`, `C47_wanted`, `C49_mined_block_same_hash_iff`, `C49_mined_link_same_hash_iff`, `C49_any_mining_accepted_neg`, `C49_mined_hash_binds_partial`, `C54_base64_round_trip`, `C54_base64_injective`, `C57_mutable_fails_iff`, `C58_wallet_with_statement_neg`, `C58_wallet_without_statement_neg`, `C58_no_wallet_neg`, `C58_no_transfer_wallet_neg`, `C59_update_drops_wallets_neg`, `C59_update_sets_fields_partial`, `C59_kept_iff`, `C60_authenticate_exact_neg`, `C60_new_identity_cannot_authenticate_neg`, `C60_session_needs_equal_secrets_neg`, `C60_equal_secrets_partial`, `C61_fields_ambiguous_neg`, `C61_hash_shows_seed_neg`, `C61_same_hash_iff_partial`, `C61_hash_binds_fields_partial`, `C61_hash_binds_bare_identity_partial`, `C62_read_objects_empty_neg`, `C64_best_peer_chosen`, `C64_far_ahead_ignored_neg`, `C65_stop_has_no_effect_neg`, `C65_every_tick_does_a_round_neg`, `C65_rounds_are_counted`, `C68_entry_same_hash_iff`, `C68_statement_same_hash_iff`, `C68_sides_ambiguous_neg`, `C68_sole_entry_changes_sides_neg`, `C68_description_unhashed_neg`, `C68_name_ambiguous_neg`, `C68_hash_binds_entries_partial`, `C68_hash_binds_entry_partial`, `C69_same_hash_iff`, `C69_transaction_roles_confused_neg`, `C69_transaction_hash_binds_partial`, `C70_order_exact`, `C70_order_rejects_foreign_partial`, `C72_private_key_trailing_text_neg`, `C73_same_hash_iff`, `C73_lock_hash_binds_keys_partial`, `C81_stays_inside_partial`, `C84_file_same_hash_iff`, `C84_bucket_same_hash_iff`, `C84_file_binding_partial`, `C84_bucket_binding`, `C84_single_file_bucket_neg`, `C88_entry_exact`, `C88_cancel_survives`, `C89_same_hash_iff`, `C89_content_unhashed_neg`, `C89_hash_binds_path_partial`, `C90_session_loses_identity_neg`, `C90_session_keeps_identity_partial`, `C90_failed_update_changes_nothing`, `C93_add_bucket`, `C93_delete_bucket`, `C93_delete_same_path_neg`, `C94_chunk_by_hash`, `C94_chunk_by_hash_last`, `C94_file_by_path`, `C97_running_daemon_changed_nothing_neg`, `C97_synchronises_once_neg`, `C98_unreachable_peer_ends_chain_daemon_neg`, `C100_round`, `C100_one_missing_bucket_neg`, `C104_line_feed_ignored_neg`, `C106_creation`, `C106_creation_never_replaces`, `C106_deletion`, `C106_failed_deletion`, `C110_path_absolute`, `C110_rebuild`, `C117_plain_signatures_agree_partial`, `C130_ascii_spelling`, `C136_first_lock_stays_partial`, `C141_last_write_wins`, `C141_added_bucket_lost_neg`, `C141_deleted_bucket_back_neg`, `C141_added_bucket_kept_partial`, `C141_nothing_invented`, `C141_changed_hash_refused`, `C143_one_signature_per_draw`, `C145_empty_store_sturdy`, `C146_each_bill_once`, `C146_outcome_unique`, `C158_ended_for_good_neg`, `C163_few_bits_refused`
* `Classical.choice`, `Quot.sound`, `propext` (550 theorems): `C02_rejects_exactly`, `C05_padding_with_floats`, `C05_tree_shape`, `C06_empty_panics_neg`, `C06_fails_only_on_empty_partial`, `C07_merkle_binding`, `C07_data_binding`, `C08_padding_ambiguous_neg`, `C08_inner_nodes_ambiguous_neg`, `C09_compact_round_trip`, `C10_order_restores`, `C11_forged_head_neg`, `C11_rebuild_exact`, `C11_stack_irrelevant`, `C12_sign_succeeds_iff`, `C12_recovered_iff`, `C12_sign_recovers_public_key_partial`, `C12_large_private_keys_neg`, `C13_verify_accepts_forgeries_neg`, `C13_verify_exact`, `C14_ring_sign_verifies_partial`, `C14_large_private_keys_neg`, `C14_ring_sign_fails_iff`, `C15_signed_round_trip`, `C16_nonempty_ring_binds_message_partial`, `C17_verify_panics_iff`, `C17_parsed_signature_panics_neg`, `C18_to_verification_exact`, `C20_unlock_sound`, `C20_unlock_exact`, `C20_unlock_needs_ring`, `C21_unlock_complete_partial`, `C22_app_lock_cannot_be_opened_neg`, `C23_same_hash_iff`, `C23_bill_hash_binds`, `C23_bill_builder_exact`, `C24_conservation_mod`, `C24_conservation_exact`, `C24_content_builder_accepts_iff`, `C24_content_locks`, `C25_covered_iff`, `C25_never_above_listed_total`, `C25_never_above_distinct_total_partial`, `C25_same_bill_twice_neg`, `C26_expense_builder_accepts_iff`, `C26_built_expense`, `C27_signature_bound_to_lock_partial`, `C27_signatures_replay_neg`, `C27_signature_bound_to_keys_partial`, `C28_same_hash_iff`, `C28_content_hash_binds_shape`, `C28_content_hash_binds_no_overflow`, `C28_content_hash_ambiguous_neg`, `C29_expense_round_trip_exact`, `C29_transaction_round_trip_exact`, `C29_block_round_trip_exact`, `C29_link_round_trip_exact`, `C29_mined_link_round_trip_exact`, `C29_bill_round_trip`, `C29_content_round_trip`, `C29_genesis_round_trip`, `C29_expense_round_trip_partial`, `C29_large_scalar_neg`, `C29_transaction_round_trip_partial`, `C29_block_round_trip_partial`, `C29_link_round_trip_partial`, `C29_mined_link_round_trip_partial`, `C29_invalid_mining_text_neg`, `C29_ring_sign_canonical`, `C30_decoded_built`, `C30_decoded_built_signed`, `C30_hash_recomputed`, `C30_missing_part_panics`, `C31_saved_is_retrievable`, `C31_saved_comes_back`, `C32_saving_never_damages`, `C32_histories_never_damage`, `C33_save_is_idempotent`, `C33_second_save_is_quiet`, `C34_interrupted_save_resumes`, `C35_references_stay_intact`, `C35_complete_files_are_retrievable`, `C36_genesis_written_once`, `C36_concurrent_saves_neg`, `C37_honest_hash_partial`, `C37_copied_file_neg`, `C37_other_genesis_neg`, `C38_retrieved_without_address_neg`, `C38_address_only_neg`, `C38_address_dropped_neg`, `C39_own_genesis_rejected_neg`, `C39_inserted_chain_lost_neg`, `C39_retrieved_genesis_differs_neg`, `C40_update_inverted_neg`, `C40_unrelated_update_stored_neg`, `C41_states_never_saved_neg`, `C41_no_state_ever_stored_neg`, `C42_same_file_iff_partial`, `C43_same_hash_iff`, `C43_link_hash_binds`, `C44_same_hash_iff`, `C44_block_hash_binds`, `C44_block_builder_exact`, `C45_same_hash_iff`, `C45_chain_hash_binds`, `C45_total_covers_known`, `C46_mined_hash_has_prefix`, `C46_huge_difficulty_is_free_neg`, `C46_stored_mined_block_meets_difficulty`, `C46_stored_mined_link_meets_difficulty`, `C47_mine_first_candidate`, `C47_mined_text_is_digits`, `C47_mine_never_fails`, `C47_mine_complete`, `C48_impossible_difficulty_diverges`, `C50_difficulty_monotone`, `C50_difficulty_accuracy`, `C50_difficulty_exact`, `C50_out_of_range_neg`, `C50_machines_disagree_neg`, `C50_base_rounded_neg`, `C51_stored_links_have_index_zero_neg`, `C51_mined_head_has_height_zero_neg`, `C52_encrypt_stream`, `C52_decrypt_stream`, `C52_decrypt_encrypt`, `C52_encrypted_length`, `C52_builder_exact`, `C52_store_returns_saved`, `C53_decrypt_total`, `C53_no_password_rejected_neg`, `C53_end_of_message_forged_neg`, `C53_cut_and_changed_neg`, `C54_accepted_texts_exact`, `C54_single_text_iff`, `C54_base64_alphabet`, `C55_last_save_wins`, `C55_no_panic`, `C55_save_succeeds_iff`, `C55_delete_all`, `C55_listing`, `C56_chunks_cover`, `C56_short_file_refused`, `C56_chunks_with_floats`, `C58_init_never_succeeds_neg`, `C58_init_panics_neg`, `C58_no_stored_wallet_neg`, `C58_no_wallet_retrieved_neg`, `C62_delete_all_chunks`, `C62_save_all_chunks_neg`, `C62_chunk_lost_neg`, `C62_file_never_saved_neg`, `C62_file_lists_neg`, `C62_bucket_never_saved_neg`, `C62_nothing_retrieved_neg`, `C62_data_history_partial`, `C63_text_injective`, `C63_builder_keeps_distinct`, `C63_stored_list_lost_neg`, `C63_never_added_neg`, `C63_add_peer_partial`, `C63_failed_add_changes_nothing`, `C64_round_applies_partial`, `C64_one_below_the_remote_head_neg`, `C64_local_height_applied_again_neg`, `C64_not_higher_nothing_applied_neg`, `C66_same_hash_iff`, `C66_genesis_hash_binds_partial`, `C66_bill_bound`, `C66_genesis_hash_ambiguous_neg`, `C66_small_increase_lost_neg`, `C67_decode_drops_errors_neg`, `C67_encode_drops_errors_neg`, `C67_encode_decode_partial`, `C67_decoded_built`, `C69_time_not_hashed`, `C70_order_accepts_iff`, `C70_order_drops_foreign_neg`, `C71_signature_text_round_trip`, `C72_same_key_iff`, `C72_key_text_round_trip_partial`, `C72_large_private_keys_neg`, `C73_lock_hash_ambiguous_neg`, `C74_same_hash_iff`, `C74_expense_hash_binds`, `C75_nan_increase_accepted_neg`, `C75_genesis_builder_exact`, `C76_same_hash_iff`, `C76_state_hash_binds`, `C77_payments_indistinguishable_neg`, `C78_torn_update_loses_chain_neg`, `C79_resave_without_genesis_neg`, `C80_no_mining_on_own_chain_neg`, `C81_inside_iff`, `C81_escapes_neg`, `C82_test_store_agrees_partial`, `C82_delete_all_agrees_partial`, `C82_spelling_matters_neg`, `C82_listing_differs_neg`, `C83_bucket_made_iff`, `C83_bucket_covers_directory`, `C84_chunk_binding`, `C84_file_boundary_ambiguous_neg`, `C84_chunk_same_hash_iff`, `C85_verify_iff_ring_closes`, `C85_verify_otherwise_false`, `C86_survives_iff`, `C86_identity_survives_partial`, `C86_update_time_lost_neg`, `C86_clock_behind_neg`, `C86_invalid_name_neg`, `C87_reads_last_save`, `C87_nothing_else_is_read`, `C87_delete`, `C88_entry_survives`, `C88_statement_survives`, `C88_wallet_bill_survives_partial`, `C90_session_follows_iff`, `C91_fee_never_paid_neg`, `C91_exact_amount_neg`, `C91_no_bills_panics_neg`, `C91_bucket_panics_neg`, `C92_transaction_names_path_neg`, `C92_transaction_made_partial`, `C92_names_content_iff`, `C93_hash_not_updated_neg`, `C94_chunk_by_hash_content`, `C95_url_round_trip`, `C95_url_round_trip_only`, `C95_brackets_neg`, `C96_line_trimmed_exact`, `C96_lines_read_back`, `C96_blanks_ignored`, `C96_text_injective`, `C96_line_break_neg`, `C98_unreachable_peer_ends_peer_daemon_neg`, `C99_round`, `C99_any_schedule`, `C101_decrypt_encrypt`, `C101_too_long_refused`, `C101_only_encryptions`, `C101_encrypts_oaep`, `C102_private_text_exact`, `C102_public_round_trip`, `C102_private_round_trip`, `C102_imported_checked`, `C102_private_encodings_exact`, `C103_hash_binds_key`, `C103_hash_binds_usual_key`, `C104_accepted_texts_exact`, `C104_spare_bits_neg`, `C104_accepted_encodings_exact`, `C104_extra_bytes_ignored_neg`, `C104_accepted_encodings_partial`, `C105_decryption_panics_iff`, `C105_decryption_panics_neg`, `C105_encoding_lost_neg`, `C105_decryption_returns_partial`, `C107_every_fee_paid`, `C107_transaction_recorded`, `C107_failed_bucket`, `C108_accepted_exactly`, `C109_state_survives`, `C109_bucket_transfer`, `C109_chunk_transfer`, `C109_bucket_accepted_iff`, `C111_vendored_sign_recovers_key`, `C112_vendored_ring_sign_verifies`, `C112_vendored_ring_sign_fails_iff`, `C113_public_key_texts`, `C113_public_key_round_trip`, `C114_canonical_texts`, `C114_second_text_neg`, `C115_ownerless_key_neg`, `C115_ownerless_signature_neg`, `C116_created_keys`, `C116_created_key_text`, `C116_created_key_signs`, `C116_created_key_ring_signs`, `C117_two_rings_reveal_key_neg`, `C117_plain_and_ring_reveal_key_neg`, `C118_ring_signature_contents`, `C118_plain_signature_reveals_signer_neg`, `C119_public_key_is_multiple`, `C119_public_keys_distinct`, `C120_vendored_verify_exact`, `C121_owned_exactly`, `C121_key_counts`, `C122_recovers_own_key_iff`, `C122_text_keeps_public_key_iff`, `C122_large_key_ring_neg`, `C123_float_texts_exist`, `C123_decimal_numbers_read`, `C123_files_read_back`, `C123_written_iff`, `C123_identity_files_read_back`, `C124_cut_file_unreadable`, `C124_tail_unreadable`, `C125_bytes_never_damaged`, `C125_saved_bytes_retrievable`, `C125_saved_bytes_come_back`, `C125_interrupted_bytes_resume`, `C125_undated_lock_never_saved_neg`, `C126_missing_lock_neg`, `C126_missing_bill_neg`, `C126_missing_expense_neg`, `C126_missing_genesis_neg`, `C126_missing_transaction_neg`, `C126_missing_block_neg`, `C126_missing_mined_block_neg`, `C126_missing_mined_link_neg`, `C126_missing_link_neg`, `C126_missing_chain_neg`, `C126_missing_state_neg`, `C126_unknown_member_neg`, `C126_last_amount_wins_neg`, `C126_first_amount_ignored_neg`, `C126_missing_time_neg`, `C126_nulls_cut_keys_neg`, `C126_white_space_neg`, `C127_rest_keys`, `C127_rest_to_new_key_neg`, `C127_common_ring_key_refused_neg`, `C127_new_key_not_kept_neg`, `C128_trees_read_back`, `C128_blocks_read_back`, `C128_entities_read_back`, `C128_signed_entities_read_back`, `C128_cut_text_refused`, `C129_head_unchecked_neg`, `C129_block_length_unchecked_neg`, `C129_missing_node_panics_neg`, `C129_rebuilding_checks`, `C130_spellings_read`, `C130_escaped_time_refused_neg`, `C130_times_in_zones`, `C130_respelled_bill`, `C131_made_up_bill_neg`, `C131_block_expenses_opened_partial`, `C132_spent_twice_neg`, `C132_same_owner_partial`, `C133_equal_payments_one_bill_neg`, `C133_payment_to_oneself_neg`, `C133_different_payments_partial`, `C134_chain_builder_accepts_iff_partial`, `C134_disconnected_chain_neg`, `C135_stored_hash_unused_neg`, `C135_copied_file_neg`, `C135_block_without_tree_neg`, `C135_state_without_tree_neg`, `C135_link_members_neg`, `C135_bill_members`, `C135_lock_members`, `C135_genesis_members`, `C135_chain_members`, `C135_expense_members`, `C135_mined_block_members_neg`, `C136_lock_displaced_neg`, `C136_bill_changed_neg`, `C136_transaction_displaced_neg`, `C136_block_changed_neg`, `C136_first_bill_stays_partial`, `C136_first_transaction_stays_partial`, `C136_first_block_stays_partial`, `C137_calls_at_once_succeed_partial`, `C137_calls_at_once_take_effect_partial`, `C137_calls_at_once_keep_partial`, `C137_calls_go_on`, `C137_calls_end`, `C137_saved_lock_vanishes_neg`, `C137_two_times_neg`, `C137_mixed_text_neg`, `C138_retrieved_is_right`, `C138_saving_again_repairs`, `C139_entry_comes_back`, `C139_statement_comes_back`, `C139_wallet_bill_comes_back`, `C139_cancel_comes_back`, `C139_nothing_else`, `C139_save_succeeds_iff`, `C139_written_iff`, `C140_holders_can_pay`, `C140_payments_travel`, `C140_bill_travels`, `C141_halves_make_the_calls`, `C142_alone_is_the_call`, `C142_halves_make_the_calls`, `C142_last_write_wins`, `C142_added_peer_lost_neg`, `C142_round_drops_peer_neg`, `C142_added_peer_kept_partial`, `C142_known_peers_stay`, `C143_ring_sign_is_the_scheme`, `C143_signatures_are_accepted`, `C143_any_member_could_have_signed`, `C143_signers_cannot_be_told_apart`, `C143_signatures_are_linked_neg`, `C144_chain_same_hash_iff_partial`, `C144_every_kind_partial`, `C144_transactions_replaced_neg`, `C145_locks_bills_genesis_never`, `C145_sturdy_files_never_panic`, `C145_saving_never_panics`, `C145_stores_stay_sturdy`, `C145_calls_never_panic`, `C145_expense_panics_iff`, `C145_trx_panics_iff`, `C145_block_panics_iff`, `C145_state_panics_iff`, `C145_containers_panic_iff`, `C145_chain_panics_iff`, `C146_supply_constant`, `C146_passes_iff`, `C146_owners`, `C146_not_audited_neg`, `C147_expense_panics_iff`, `C147_trx_panics_iff`, `C147_block_panics_iff`, `C147_link_panics_iff`, `C147_decode_panics_iff`, `C147_texts_panic_iff`, `C147_whole_structures_never_panic`, `C147_whole_texts_never_panic`, `C147_own_texts_never_panic`, `C148_missing_lock_neg`, `C148_missing_bill_neg`, `C148_missing_content_neg`, `C148_missing_expense_neg`, `C148_missing_address_neg`, `C148_missing_transaction_neg`, `C148_missing_genesis_neg`, `C148_missing_block_neg`, `C148_missing_link_neg`, `C148_missing_mined_link_neg`, `C148_missing_entry_neg`, `C148_missing_statement_neg`, `C148_missing_wallet_bill_neg`, `C148_missing_wallet_neg`, `C148_missing_identity_neg`, `C148_missing_cancel_neg`, `C148_mined_link_decodes_neg`, `C148_time_left_out_neg`, `C148_identity_reads_neg`, `C149_sealed_identity_comes_back_partial`, `C149_never_panics`, `C149_save_succeeds_iff`, `C149_wallets_cut_off_neg`, `C150_last_saved_comes_back`, `C150_saved_address_found_partial`, `C150_another_address_instead_neg`, `C150_save_succeeds_iff`, `C150_never_panics`, `C150_hash_not_checked_neg`, `C151_reads_of_a_retrieval`, `C151_reads_are_bounded`, `C151_repeated_references_neg`, `C152_same_instant`, `C152_read_times_partial`, `C152_files_in_zones_partial`, `C152_files_in_odd_zones_neg`, `C152_received_locks_partial`, `C152_received_lock_lost_neg`, `C153_retrieved_is_right`, `C153_retrieved_meanwhile_is_right`, `C153_saving_again_repairs`, `C153_saving_everything_again_repairs`, `C153_saving_objects_again_repairs`, `C153_everything_lost_neg`, `C153_acknowledged_save_lost_neg`, `C153_earlier_files_come_back_neg`, `C153_lock_of_bill_lost_neg`, `C154_relayed_is_right_partial`, `C154_relayed_arrives_partial`, `C154_addresses_never_sent_on_neg`, `C155_call_writes_no_file_neg`, `C155_no_file_ever_neg`, `C155_applications_start_nothing_neg`, `C155_nobody_has_money_neg`, `C155_failed_calls_change_nothing_partial`, `C156_same_hash_iff_partial`, `C156_lists_apart_partial`, `C156_kinds_apart_partial`, `C156_any_hash_neg`, `C156_bill_as_mined_block_neg`, `C156_link_as_mined_block_neg`, `C156_content_as_block_neg`, `C157_nobody_is_invented`, `C157_everybody_is_found`, `C157_lists_become_complete`, `C157_doubling`, `C157_one_node_down_ends_all_neg`, `C158_heights_are_kept`, `C158_newest_link_never_arrives_neg`, `C158_highest_never_agree_neg`, `C159_changed_signatures_verify`, `C159_extra_scalars_neg`, `C159_turned_ring_neg`, `C159_any_number_neg`, `C159_transaction_changes_neg`, `C159_spelling_partial`, `C160_hashes_can_be_extended`, `C161_times_are_free_neg`, `C161_any_order_neg`, `C161_texts_on_the_way_neg`, `C161_first_times_stay`, `C161_expense_times_partial`, `C162_numbers_exact`, `C162_primes_cancel`, `C162_decrypts_partial`, `C162_wrong_key_neg`, `C163_jacobi_exact`, `C163_lucas_accepts_primes`, `C163_test_complete`, `C163_round_iff`, `C163_primes_are_strong`, `C163_test_accepts_primes`, `C163_test_accepts`, `C163_prime_drawn`, `C163_no_prime_passed_over`, `C163_every_prime_possible`, `C163_every_key_possible`, `C163_pairs_drawn`, `C163_created_from_source`, `C163_first_usable_pair`, `C163_no_usable_pair`, `C163_created_key_decrypts`, `C163_short_keys_encrypt_nothing`, `C163_created_key_survives`, `C164_decrypts`, `C164_imported_checked`, `C164_panics_iff`, `C164_two_primes_as_before`, `C164_round_trip`, `C164_numbers_exact`, `C164_one_power`, `C164_blinding_does_not_matter`, `C164_decrypts_iff`, `C164_imported_decrypts`, `C164_primes_cancel`, `C164_two_primes_same`, `C165_blinding_does_not_matter`, `C165_decrypts_iff`, `C165_encryptions_differ`, `C165_leading_zero_neg`, `C166_every_block_differs`, `C166_changed_block`, `C166_changed_start`, `C167_objects_hash`, `C167_encrypt`, `C167_decrypt`
