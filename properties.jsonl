{"id": "C01", "title": "Hash string form is faithful", "statement": "For every hash h, h.String() is exactly 128 lowercase hex characters, FromString(h.String()) gives back h, two hashes have equal strings iff Compare reports them equal, and two hashes have equal Path() iff they are equal.", "quantifier": "all 64-byte hashes and all pairs of hashes", "why_tests_cant": "2^512 hashes; file names and map keys rely on no pair ever clashing", "anchors": ["libs/hash/adapter.go:FromString", "libs/hash/hash.go:String", "libs/hash/hash.go:Compare", "libs/hash/hash.go:Path"]}
{"id": "C02", "title": "FromString is total and rejects exactly the malformed hex strings", "statement": "For every byte string s, FromString(s) never panics; it fails iff s has odd length or contains a non-hex character; letter case does not matter; the result equals FromBytes of the decoded bytes.", "quantifier": "all byte strings", "why_tests_cant": "unbounded input space, every position may hold any byte", "anchors": ["libs/hash/adapter.go:FromString"]}
{"id": "C03", "title": "Hashing a hash is the identity, everything else goes through SHA-512", "statement": "FromBytes(x) equals SHA-512(x) when len(x) != 64 and equals x itself when len(x) = 64; hence FromBytes(FromBytes(x).Bytes()) = FromBytes(x) for every x.", "quantifier": "all byte strings, all 64-byte-output hash functions", "why_tests_cant": "must hold at the single special length and every other length", "anchors": ["libs/hash/adapter.go:FromBytes"]}
{"id": "C04", "title": "FromMultiBytes only sees the concatenation (no row separation)", "statement": "FromMultiBytes(rows) depends on the concatenation of rows only: any two row lists with equal concatenation get the same hash, whatever the hash function. The expectation that distinct row lists get distinct hashes is therefore false; conversely, if two row lists get equal hashes then their concatenations are equal or the pair exhibits an explicit SHA-512 collision or 64-byte pass-through.", "quantifier": "all lists of byte strings", "why_tests_cant": "quantifies over all ways of cutting a byte string", "anchors": ["libs/hash/adapter.go:FromMultiBytes"]}
{"id": "C05", "title": "Hash tree construction succeeds with the right shape", "statement": "For every non-empty list of data blocks, building a hash tree succeeds; its Length() is the least power of two that is >= max(2, number of blocks), its Height() is log2(Length())+1, and its leaves are the hashes of the blocks in order followed by hashes of the empty string only. The padding is the same when it is computed with floating point logarithms, as the code does, for fewer than 2^44 blocks.", "quantifier": "all non-empty lists of byte strings of any length", "why_tests_cant": "structure must be right for every list length, including every non power of two", "anchors": ["libs/hashtree/block.go:createBlockFromData", "libs/hashtree/block.go:resize", "libs/hashtree/leaves.go:HashTree", "libs/hashtree/hashtree.go:Height", "libs/hashtree/hashtree.go:Length"]}
{"id": "C06", "title": "Hash tree on an empty (non-nil) block list fails cleanly", "statement": "Building a hash tree with WithBlocks of an empty non-nil list should return an error; in the code it panics with an index out of range.", "quantifier": "the empty list under every hash function", "why_tests_cant": "tests only build non-empty trees; the failure kind (panic vs error) is a semantic claim", "anchors": ["libs/hashtree/block.go:createBlockFromData", "libs/hashtree/leaves.go:createChildrenLeaves"]}
{"id": "C07", "title": "Merkle binding", "statement": "If two hash trees with the same number of leaves have the same Head(), then their leaf hashes are pairwise equal, unless two different 128-byte node preimages occurring in the two trees have the same SHA-512 image (an explicit collision).", "quantifier": "all pairs of block lists of equal padded length, all hash functions", "why_tests_cant": "collision-resistance reduction over unbounded tree pairs", "anchors": ["libs/hashtree/leaf.go:createChildLeaf", "libs/hashtree/parentleaf.go:HashTree", "libs/hashtree/hashtree.go:Head"]}
{"id": "C08", "title": "The head does not determine the block list", "statement": "Distinct block lists can have the same head for every hash function: a list and the list with empty blocks appended up to the padded length always agree, and a four-block tree always has the head of the two-block tree over its two inner node hashes. So equality of heads alone does not imply equality of the data.", "quantifier": "all block lists", "why_tests_cant": "holds for infinitely many pairs and for every hash function", "anchors": ["libs/hashtree/block.go:resizeToNextPowerOfTwo", "libs/hash/adapter.go:FromBytes"]}
{"id": "C09", "title": "Compact form round-trips", "statement": "For every hash tree built from blocks, taking Compact(), converting it to JSON and back, and rebuilding the tree from the leaves gives a tree with the same head and the same leaves; the full JSON form round-trips to an identical tree.", "quantifier": "all non-empty block lists", "why_tests_cant": "nested recursive structure of unbounded depth", "anchors": ["libs/hashtree/hashtree.go:Compact", "libs/hashtree/compact.go:createCompactFromJSON", "libs/hashtree/json_hashtree.go", "libs/hashtree/hashtree.go:createHashTreeFromJSON"]}
{"id": "C10", "title": "Order restores the original order from any shuffle", "statement": "For blocks with pairwise distinct hashes, none of which is the padding hash when padding is present, Order(any permutation of the blocks) returns exactly the original block list; Order succeeds only with an output of the same length whose every element is one of the inputs.", "quantifier": "all block lists with distinct hashes and all permutations", "why_tests_cant": "factorially many permutations of unbounded lists", "anchors": ["libs/hashtree/hashtree.go:Order"]}
{"id": "C11", "title": "A compact tree loaded from JSON is not re-verified", "statement": "Loading a compact tree from JSON accepts any head string that is valid hex, whatever the leaves; rebuilding the tree from a leaf list panics or overflows the stack exactly when the number of leaves is not a power of two that is at least two.", "quantifier": "all leaf lists and heads", "why_tests_cant": "quantifies over all malicious JSON documents", "anchors": ["libs/hashtree/compact.go:createCompactFromJSON", "libs/hashtree/leaves.go:HashTree"]}
{"id": "C12", "title": "Schnorr signature yields the signer's public key", "statement": "For every private key and message, Sign succeeds and the signature's PublicKey(msg) equals the signer's PublicKey(), provided the challenge scalars involved are nonzero. This holds for private keys up to K = 0x877...7 (an 8 and 63 sevens), which include all keys made by the factory; with larger keys, which ToPrivateKey accepts, multiplication of points drops the top digit and the recovered key is another one.", "quantifier": "all private keys, all messages, all verification nonces", "why_tests_cant": "group elements and messages are unbounded", "anchors": ["libs/cryptography/pk/signature/privatekey.go:Sign", "libs/cryptography/pk/signature/signature.go:PublicKey"]}
{"id": "C13", "title": "Signature.Verify carries no information", "statement": "For every point r = k*G and every scalar s (not derived from any private key), Verify() of the signature (r, s) returns true whenever the challenge is nonzero; so Verify never rejects a forged pair.", "quantifier": "all scalars k, s and all internally drawn messages", "why_tests_cant": "tests only ever see genuine signatures", "anchors": ["libs/cryptography/pk/signature/signature.go:Verify", "libs/cryptography/pk/signature/signature.go:createSignature"]}
{"id": "C14", "title": "Ring signatures made by a ring member always verify", "statement": "For every private key, message and ring that contains the matching public key at any position (possibly several times, with arbitrary other points), RingSign succeeds and the signature's Verify(msg) is true and its Ring() is the given ring; RingSign fails iff the public key is not in the ring. With private keys above K = 0x877...7 (C122), which ToPrivateKey accepts, RingSign succeeds but its signatures do not verify.", "quantifier": "all keys, messages, ring sizes, positions, foreign points", "why_tests_cant": "ring length, signer index and foreign keys are unbounded", "anchors": ["libs/cryptography/pk/signature/privatekey.go:RingSign", "libs/cryptography/pk/signature/ringsignature.go:Verify"]}
{"id": "C15", "title": "Ring signature text form round-trips", "statement": "For every ring signature, ToSignature(sig.String()) succeeds and returns a signature with the same ring, the same scalars (as strings) and the same verdict on every message.", "quantifier": "all ring signatures with canonical scalars, any ring size including zero", "why_tests_cant": "unbounded ring sizes, delimiter handling", "anchors": ["libs/cryptography/pk/signature/ringsignature.go:String", "libs/cryptography/pk/signature/ringsignature_adapter.go:ToSignature"]}
{"id": "C16", "title": "An empty ring verifies everything", "statement": "A signature with an empty ring verifies against every message; such signatures are constructible from text, so ToVerification with an empty hash list returns true for every message. A valid signature should imply a ring member signed.", "quantifier": "all messages, all scalars e", "why_tests_cant": "universal acceptance cannot be tested", "anchors": ["libs/cryptography/pk/signature/ringsignature.go:Verify", "libs/cryptography/pk/signature/ringsignature_adapter.go:ToVerification"]}
{"id": "C17", "title": "Verifying a parsed ring signature never panics", "statement": "Verify on any signature obtained from ToSignature returns a boolean; in the code it panics exactly when there are fewer scalars than ring members, and such texts are accepted by ToSignature.", "quantifier": "all texts accepted by ToSignature", "why_tests_cant": "adversarial input space", "anchors": ["libs/cryptography/pk/signature/ringsignature_adapter.go:ToSignature", "libs/cryptography/pk/signature/ringsignature.go:Verify"]}
{"id": "C18", "title": "ToVerification is exact", "statement": "ToVerification(sig, msg, hashes) returns true iff sig verifies on msg and hashes is, position by position, the list of FromString(key.String()) over the ring.", "quantifier": "all signatures, messages and hash lists", "why_tests_cant": "positional equality over unbounded lists, both directions", "anchors": ["libs/cryptography/pk/signature/ringsignature_adapter.go:ToVerification"]}
{"id": "C19", "title": "Lock builder accepts exactly the duplicate-free non-empty key lists", "statement": "Building a lock succeeds iff the public key hash list is given, non-empty and without duplicates; the lock exposes exactly those keys and its hash is FromMultiBytes of the keys in order.", "quantifier": "all lists of hashes", "why_tests_cant": "duplicates may sit anywhere in unbounded lists", "anchors": ["domain/memory/piastres/locks/builder.go:Now"]}
{"id": "C20", "title": "Unlock soundness", "statement": "If Unlock(sig) returns nil then sig.Verify(lock hash string) is true and the set of FromBytes(key.String()) over sig's ring is exactly the lock's key set.", "quantifier": "all locks and all ring signatures", "why_tests_cant": "adversarial signatures, set equality over unbounded rings", "anchors": ["domain/memory/piastres/locks/lock.go:Unlock"]}
{"id": "C21", "title": "Unlock completeness", "statement": "For every duplicate-free ring of points, the lock over FromBytes(key.String()) of the ring can be opened by the private key (up to K, see C122) of any ring member: Unlock(RingSign(lock.Hash().String(), ring)) returns nil.", "quantifier": "all rings, members and private keys", "why_tests_cant": "all ring sizes and positions", "anchors": ["domain/memory/piastres/locks/lock.go:Unlock", "libs/cryptography/pk/signature/privatekey.go:RingSign"]}
{"id": "C22", "title": "Locks made by the applications cannot be opened", "statement": "The applications build locks from FromString(pubKey.String()) while Unlock compares FromBytes([]byte(pubKey.String())): no ring signature whatsoever with a ring over that key opens such a lock, unless SHA-512 of a 32-byte key encoding equals a 64 character hex text.", "quantifier": "all public keys and all ring signatures", "why_tests_cant": "negative statement over every possible signature", "anchors": ["application/genesis/current.go:Init", "application/identities/piastres/current.go:Bucket", "domain/memory/piastres/locks/lock.go:Unlock"]}
{"id": "C23", "title": "Bill hash commits to lock and amount", "statement": "Two bills built with equal hashes have the same lock hash and the same amount (for all uint64 amounts, including those printed as negative numbers), unless an explicit SHA-512 collision occurs between their preimages.", "quantifier": "all pairs of bills", "why_tests_cant": "2^64 amounts times all locks", "anchors": ["domain/memory/piastres/bills/builder.go:Now"]}
{"id": "C24", "title": "Expenses conserve value", "statement": "For every expense content that is built, amount paid + change = sum of the spent bills modulo 2^64, and exactly (over unbounded integers) when the true sum is below 2^64; the paid amount is positive and a change bill exists iff the change is positive.", "quantifier": "all bill lists, amounts and locks", "why_tests_cant": "arithmetic over unbounded lists with wraparound", "anchors": ["domain/memory/piastres/expenses/content_builder.go:Now"]}
{"id": "C25", "title": "Expenses never create value", "statement": "No expense content pays out more than the true (unbounded integer) total of the bills it lists; overflow can only lose value. Counting each distinct bill once, this holds for duplicate-free bill lists and fails otherwise: listing the same bill twice counts its amount twice.", "quantifier": "all bill lists, including repeated bills and sums over 2^64", "why_tests_cant": "needs adversarial lists", "anchors": ["domain/memory/piastres/expenses/content_builder.go:Now"]}
{"id": "C26", "title": "Expense builder accepts exactly the fully unlocked expenses", "statement": "Building an expense from content and signatures succeeds iff the number of signatures equals the number of spent bills and the i-th signature unlocks the i-th bill's lock.", "quantifier": "all contents and signature lists", "why_tests_cant": "conjunction over unbounded lists, both directions", "anchors": ["domain/memory/piastres/expenses/builder.go:Now"]}
{"id": "C27", "title": "Expense signatures are not bound to the destination", "statement": "Signatures accepted for one expense are accepted for any other content that spends bills with the same locks, whatever its recipient, amount and change lock: anyone who has seen a spend can re-spend. A user would expect a signature to authorise one payment only.", "quantifier": "all pairs of contents over the same source locks", "why_tests_cant": "replay over every alternative content", "anchors": ["domain/memory/piastres/expenses/builder.go:Now", "domain/memory/piastres/locks/lock.go:Unlock"]}
{"id": "C28", "title": "Expense content hash is ambiguous", "statement": "A content hash should identify the content. When the sum of the spent amounts overflows uint64 it does not, for every hash function: spending a and b without change and spending a with a change lock whose hash is b's hash give the same content hash. For contents over built bills whose totals do not overflow, equal hashes imply equal lock, amount, bills and change lock, barring an explicit collision.", "quantifier": "all pairs of contents", "why_tests_cant": "quantifies over all hash functions and pairs", "anchors": ["domain/memory/piastres/expenses/content_builder.go:Now"]}
{"id": "C29", "title": "In-memory JSON forms round-trip", "statement": "Converting a lock, bill, expense, genesis, transaction, block, link or mined link to its JSON structure and back yields an equal object (same hash, same fields, same creation time); scalars inside ring signatures come back in their reduced encoding, which is the encoding that RingSign produces. This needs scalars up to K = 0x877...7 (an 8 and 63 sevens): an expense with a larger scalar can be accepted by the builder and rejected when its JSON is read. Exactly: an expense, or a transaction, block, link or mined link with expenses in it, comes back if and only if the signatures with reduced scalars still open the bills; a mining text comes back if and only if it is valid UTF-8.", "quantifier": "all objects produced by the builders", "why_tests_cant": "deeply nested objects of unbounded size", "anchors": ["domain/memory/piastres/locks/lock.go:createLockFromJSON", "domain/memory/piastres/bills/bill.go:createBillFromJSON", "domain/memory/piastres/expenses/expense.go:createExpenseFromJSON", "domain/memory/piastres/genesis/genesis.go:createGenesisFromJSON", "domain/memory/piastres/transactions/transaction.go:createTransactionFromJSON", "domain/memory/piastres/blocks/block.go:createBlockFromJSON", "domain/memory/piastres/links/link.go:createLinkFromJSON", "domain/memory/piastres/links/mined/link.go:createLinkFromJSON"]}
{"id": "C30", "title": "Objects decoded from JSON carry a recomputed hash", "statement": "Every lock, bill, genesis, transaction, block or link obtained from an arbitrary JSON structure has a hash computed from its decoded fields: forging the content without changing the hash requires a collision; a JSON structure with a missing nested object makes the decoder panic rather than fail.", "quantifier": "all JSON structures", "why_tests_cant": "adversarial documents", "anchors": ["domain/memory/piastres/locks/lock.go:createLockFromJSON", "domain/memory/piastres/bills/bill.go:createBillFromJSON", "domain/memory/piastres/blocks/block.go:createBlockFromJSON"]}
{"id": "C31", "title": "Save then Retrieve returns the saved object", "statement": "After a successful Save of a lock, bill, expense, genesis, transaction without address, block (with its genesis stored), mined block, link or mined link on a store that does not already hold an unrelated object, Retrieve of its hash returns the object saved (same hash and fields).", "quantifier": "all objects, all prior store contents, all fault schedules that let Save return nil", "why_tests_cant": "unbounded stores and objects, histories", "anchors": ["domain/memory/piastres/locks/service.go:Save", "domain/memory/piastres/bills/service.go:Save", "domain/memory/piastres/expenses/service.go:Save", "domain/memory/piastres/genesis/service.go:Save", "domain/memory/piastres/transactions/service.go:Save", "domain/memory/piastres/blocks/service.go:Save"]}
{"id": "C32", "title": "Saving never damages what was retrievable", "statement": "Whatever was retrievable before a Save begins is retrievable with the identical value at every crash point during the Save and after it, under every schedule of failing and torn file writes.", "quantifier": "all stores, all objects, all crash points, all write-fault schedules", "why_tests_cant": "crash points and fault schedules are unbounded", "anchors": ["domain/memory/piastres/locks/service.go:Save", "domain/memory/piastres/bills/service.go:Save", "domain/memory/piastres/expenses/service.go:Save", "domain/memory/piastres/transactions/service.go:Save", "domain/memory/piastres/blocks/service.go:Save", "domain/memory/piastres/links/service.go:Save"]}
{"id": "C33", "title": "Save is idempotent", "statement": "If Retrieve(hash) already succeeds, Save of an object with that hash returns nil and performs no write at all; in particular saving the same object twice leaves the store unchanged the second time.", "quantifier": "all stores and objects", "why_tests_cant": "all prior histories", "anchors": ["domain/memory/piastres/locks/service.go:Save", "domain/memory/piastres/bills/service.go:Save", "domain/memory/piastres/expenses/service.go:Save", "domain/memory/piastres/transactions/service.go:Save", "domain/memory/piastres/blocks/service.go:Save", "domain/memory/piastres/links/service.go:Save"]}
{"id": "C34", "title": "Interrupted Save can be resumed", "statement": "If a Save is cut at any point (crash, torn or failed write) then running the same Save again on the surviving store, without further faults, succeeds and makes the object retrievable.", "quantifier": "all crash points of all Saves", "why_tests_cant": "every prefix of an unbounded write sequence, including torn files", "anchors": ["domain/memory/piastres/bills/service.go:Save", "domain/memory/piastres/expenses/service.go:Save", "domain/memory/piastres/transactions/service.go:Save"]}
{"id": "C35", "title": "Dependencies are on disk before the referrer", "statement": "At every crash point of Save, a bill (expense, transaction) file that is present and complete has its lock (bills, fees) retrievable, provided that held before the Save.", "quantifier": "all crash points and fault schedules", "why_tests_cant": "ordering must hold in every prefix", "anchors": ["domain/memory/piastres/bills/service.go:Save", "domain/memory/piastres/expenses/service.go:Save", "domain/memory/piastres/transactions/service.go:Save"]}
{"id": "C36", "title": "Genesis is written once", "statement": "Once a genesis is retrievable, every later genesis Save returns an error and every retrieval returns the same genesis, in every sequential history of operations. With two concurrent Saves this fails: both can return nil, the later one replacing the first.", "quantifier": "all sequential histories; some concurrent schedule for the failure", "why_tests_cant": "histories and interleavings are unbounded", "anchors": ["domain/memory/piastres/genesis/service.go:Save"]}
{"id": "C37", "title": "Retrieve(h) returns an object whose hash is h", "statement": "An object returned by Retrieve(h) should have hash h whatever is on disk. In the code this fails for every repository kind: the stored hash is not compared, a tampered file yields an object with another hash; it holds when the store was only written by Save.", "quantifier": "all store contents (tampered) / all histories of Saves", "why_tests_cant": "adversarial file contents", "anchors": ["domain/memory/piastres/locks/repository.go:Retrieve", "domain/memory/piastres/bills/repository.go:Retrieve"]}
{"id": "C38", "title": "Stored transactions keep their address", "statement": "Saving and retrieving a transaction should preserve its address and hash. In the code the address is not stored: an address-only transaction can never be saved, and a transaction with address plus fees or bucket comes back without address and with a hash that is computed without the address.", "quantifier": "all transactions with an address", "why_tests_cant": "all transactions", "anchors": ["domain/memory/piastres/transactions/adapter.go:ToTransfer", "domain/memory/piastres/transactions/repository.go:Retrieve"]}
{"id": "C39", "title": "The chain can be retrieved after it was inserted", "statement": "After Insert(chain) returns nil, Retrieve() should return the chain. In the code the genesis comparison is inverted, so Retrieve fails in every state where the stored chain's genesis is the stored genesis, in particular after every successful Insert.", "quantifier": "all chains and stores", "why_tests_cant": "all stores and histories", "anchors": ["domain/memory/piastres/chains/repository.go:Retrieve", "domain/memory/piastres/chains/service.go:Insert"]}
{"id": "C40", "title": "A chain update keeps genesis and root", "statement": "Update(original, updated) should succeed only when both chains share genesis and root. In the code both comparisons are inverted: it fails whenever either is shared and stores the update only when both differ.", "quantifier": "all pairs of chains", "why_tests_cant": "all pairs", "anchors": ["domain/memory/piastres/chains/service.go:Update"]}
{"id": "C41", "title": "States can be saved", "statement": "Save(state) should persist the state. In the code conversion to the stored form never sets the transaction amount nor the chain, so for every state not already stored with at least as many transactions Save fails and writes nothing.", "quantifier": "all states and stores", "why_tests_cant": "all inputs fail", "anchors": ["domain/memory/piastres/states/adapter.go:ToTransfer", "domain/transfers/piastres/states/builder.go:Now", "domain/memory/piastres/states/service.go:Save"]}
{"id": "C42", "title": "State files of different heights never clash", "statement": "Two states of a chain at different heights should be stored under different paths. In the code the height is turned into a code point: all surrogate and out-of-range heights share one path and heights 46 and 47 fall back to the chain directory; heights that are valid code points other than those two are injective.", "quantifier": "all pairs of uint heights", "why_tests_cant": "2^64 heights", "anchors": ["domain/transfers/piastres/states/helper.go:filePath"]}
{"id": "C43", "title": "Link hash commits to previous link, block and index", "statement": "Two links built with equal hashes have equal previous link, equal next block hash and equal index, barring an explicit collision of their preimages.", "quantifier": "all pairs of links", "why_tests_cant": "all pairs", "anchors": ["domain/memory/piastres/links/builder.go:Now"]}
{"id": "C44", "title": "Block hash commits to its content", "statement": "Two blocks with the same hash have the same genesis hash, additional count and list of transaction hashes (also the same number of them), barring an explicit collision of their preimages.", "quantifier": "all pairs of blocks", "why_tests_cant": "all pairs, digit strings of every length", "anchors": ["domain/memory/piastres/blocks/builder.go:Now"]}
{"id": "C45", "title": "Chain hash commits to genesis, root, head and total", "statement": "Two chains with equal hash agree in genesis hash, root hash, head hash and total, barring an explicit collision; the total is never below the number of transactions in the root and head blocks.", "quantifier": "all pairs of chains", "why_tests_cant": "all pairs", "anchors": ["domain/memory/piastres/chains/builder.go:Now"]}
{"id": "C46", "title": "Mining result is a valid proof of work", "statement": "Whenever mining returns a result for a hash h and difficulty d, the mined block (or link) built from it should have a hash that starts with d zero bytes. This holds for every difficulty below 2^63; from 2^63 on the conversion to int is negative, nothing is required and mining returns \"0\" at once.", "quantifier": "all hash functions, difficulties and input hashes, every number of attempts", "why_tests_cant": "the search is unbounded", "anchors": ["application/miners/helper.go:mine", "application/miners/helper.go:mineRecursively", "domain/memory/piastres/blocks/mined/builder.go:Now"]}
{"id": "C47", "title": "Mining finds the smallest nonce and only explores zero-prefixed suffixes", "statement": "A mining result is always of the form 0...0 followed by a decimal number not above 2147483647, every smaller candidate in search order fails the prefix test, and the search never reports failure.", "quantifier": "all runs", "why_tests_cant": "the recursion is unbounded", "anchors": ["application/miners/helper.go:mineRecursively"]}
{"id": "C48", "title": "Impossible difficulties do not terminate", "statement": "For a difficulty above 64 and below 2^63 no nonce can satisfy the prefix, and mining never returns: it recurses forever instead of reporting that mining is impossible.", "quantifier": "all hash functions and difficulties above 64 and below 2^63, every recursion depth", "why_tests_cant": "non-termination is not testable", "anchors": ["application/miners/helper.go:mineRecursively", "application/miners/helper.go:prefix"]}
{"id": "C49", "title": "Mined objects are not checked", "statement": "A mined block or link should only be constructible with a mining string that satisfies the difficulty. The builders accept every string: an empty mining string gives a mined block whose hash is the block's own hash.", "quantifier": "all blocks, links, mining strings", "why_tests_cant": "universal acceptance", "anchors": ["domain/memory/piastres/blocks/mined/builder.go:Now", "domain/memory/piastres/links/mined/builder.go:Now"]}
{"id": "C50", "title": "Block difficulty grows with the number of transactions", "statement": "For every genesis with an increase that is not negative, the block difficulty never decreases when transactions are added and is at least the base, on every machine, as long as the value fits in 64 bits and the base is at most 2^53; it is base + incr*n(n+1)/2 rounded down, exactly if the increase is a multiple of a power of two that is not too small, and with a relative error of 2^-53 for each of n + 2 roundings otherwise. Machines should agree on the difficulty, but those that fuse multiplication and addition differ from those that do not (base 1, increase 1.4, five transactions: 21 and 22), and out of range values give anything.", "quantifier": "all bases, increases, transaction counts and machines", "why_tests_cant": "floating point rounding at every step, on every machine", "anchors": ["application/miners/helper.go:difficulty"]}
{"id": "C51", "title": "Mined links always have index 0", "statement": "The link miner never sets the index, so every link it stores has index 0 whatever link it extends, and a chain whose head was mined by the application has height 0.", "quantifier": "all stores and inputs", "why_tests_cant": "all histories", "anchors": ["application/miners/current.go:Link", "domain/memory/piastres/chains/chain.go:Height"]}
{"id": "C52", "title": "Encrypted files decrypt to what was saved", "statement": "For every password, message and random IV, Decrypt(Encrypt(m)) = m, for every block cipher; an encrypted store returns exactly the content saved last under a path. The builder refuses exactly the nil password, and the encryption it gives reads and writes like one made of the same password without it.", "quantifier": "all messages of any length, IVs, passwords, block functions", "why_tests_cant": "stream mode over unbounded messages", "anchors": ["libs/cryptography/encryption/encryption.go:Encrypt", "libs/cryptography/encryption/encryption.go:Decrypt", "libs/cryptography/encryption/builder.go:Now", "libs/file/encrypted_file_disk_service.go:Save"]}
{"id": "C53", "title": "Decrypt is total, and does not authenticate", "statement": "Decrypt never panics; it fails only on invalid base64 or less than 16 decoded bytes; every other text decrypts without error under every password, so a wrong password or a modified file is not detected; without the password a stored text can be cut off after any byte of the message and that byte changed in any wanted bits.", "quantifier": "all texts and passwords", "why_tests_cant": "adversarial texts", "anchors": ["libs/cryptography/encryption/encryption.go:Decrypt"]}
{"id": "C54", "title": "Base64 transport is faithful", "statement": "Standard base64 decoding of the encoding of any byte string returns that byte string, and the encoding uses only the base64 alphabet. A text is decoded to given bytes exactly when, without its line breaks, it is their encoding, up to the bits of the last character that no byte needs; so exactly the byte strings whose length is a multiple of three have a single text.", "quantifier": "all byte strings", "why_tests_cant": "all lengths modulo 3", "anchors": ["libs/cryptography/encryption/encryption.go:Encrypt", "libs/cryptography/pk/signature/ringsignature.go:String"]}
{"id": "C55", "title": "File store behaves as a map", "statement": "After any sequence of saves and deletes on the file service, Retrieve(path) returns the content of the last save to that path not followed by a delete, and fails otherwise; DeleteAll stops at the first missing path having deleted exactly the preceding ones.", "quantifier": "all operation histories", "why_tests_cant": "unbounded histories", "anchors": ["libs/file/repository_service_tests.go", "libs/file/file_disk_service.go", "libs/file/file_disk_repository.go"]}
{"id": "C56", "title": "Chunks cover the file", "statement": "When a file is at least one chunk long, the chunks produced for it concatenate to the file, all but the last have exactly the chunk size and the last is shorter than two chunk sizes. A file shorter than the chunk size (including an empty one) gets no chunk at all, so it cannot be added to a bucket. The number of chunks is the same when it is computed with a floating point division, as the code does, below 2^53 bytes.", "quantifier": "all file contents and positive chunk sizes", "why_tests_cant": "all lengths relative to the chunk size", "anchors": ["application/identities/buckets/application.go:dirFileToFile", "domain/memory/buckets/files/builder.go:Now"]}
{"id": "C57", "title": "Timestamps of mutable entities are ordered", "statement": "Every mutable entity built has its creation time not after its last update time, for explicit and defaulted times; building fails exactly when the hash is missing or the times are out of order.", "quantifier": "all optional times and clock readings", "why_tests_cant": "clock readings are arbitrary", "anchors": ["libs/entities/mutable_builder.go:Now", "libs/entities/immutable_builder.go:Now"]}
{"id": "C58", "title": "Wallets can be built", "statement": "Building a wallet from bills, a name and a statement should succeed. In the code the statement check is inverted: with a statement it always fails, without one it panics, so no wallet can ever be built and genesis initialisation never completes.", "quantifier": "all inputs", "why_tests_cant": "no input succeeds", "anchors": ["domain/memory/identities/wallets/wallet/builder.go:Now", "domain/transfers/identities/wallets/builder.go:Now", "application/genesis/current.go:Init"]}
{"id": "C59", "title": "Updating an identity keeps its wallets and buckets", "statement": "Updating the name, seed, root or password of an identity should keep its wallets and buckets. In the code the updated identity handed to the store never has any wallet or bucket.", "quantifier": "all identities and updates", "why_tests_cant": "all inputs", "anchors": ["application/identities/current.go:Update", "domain/memory/identities/builder.go:Now"]}
{"id": "C60", "title": "Authentication uses the arguments it was given", "statement": "A user who created an identity with name, password, seed should authenticate with the same name, seed, password. The lookup is called with seed and password swapped, so it looks up the identity of (name, password:=seed, seed:=password).", "quantifier": "all names, seeds, passwords", "why_tests_cant": "all triples", "anchors": ["application/current.go:Authenticate", "application/genesis/current.go:Init", "domain/memory/identities/sdk.go:Repository"]}
{"id": "C61", "title": "Identity hash separates its fields", "statement": "Two identities with different (seed, name, root) should have different hashes. In the code the fields are concatenated without separation, so moving characters between fields keeps the hash; with equal field lengths and no wallets or buckets, equal hashes imply equal fields barring a collision.", "quantifier": "all triples of strings", "why_tests_cant": "all cut points", "anchors": ["domain/memory/identities/builder.go:Now"]}
{"id": "C62", "title": "Buckets survive storage", "statement": "A bucket, file or chunk saved through its transfer service should be retrievable. In the code bucket, file and chunk have no JSON methods and no exported fields, so the retrieved object is empty and any use of its hash panics. What holds: the data of chunks, stored as they are, are retrieved by their hash as last saved, unless they were deleted since; a deletion succeeds exactly when there was something to delete.", "quantifier": "all buckets, files and chunks", "why_tests_cant": "all inputs", "anchors": ["domain/transfers/buckets/bucket.go", "domain/transfers/buckets/files/file.go", "domain/transfers/buckets/files/chunks/chunk.go", "domain/transfers/buckets/files/builder.go:createBuilder"]}
{"id": "C63", "title": "Peer lists survive storage and additions", "statement": "Saving a peer list and reading it back should give the same peers. In the code the conversion back from URLs returns no list and no error, so reading always yields a nil list and adding a peer to a stored list panics; the peer builder itself keeps exactly the distinct peers.", "quantifier": "all peer lists", "why_tests_cant": "all lists", "anchors": ["domain/transfers/peers/adapter.go:ToPeers", "domain/transfers/peers/repository.go:Retrieve", "application/peers/application.go:save", "domain/memory/peers/builder.go:Now"]}
{"id": "C64", "title": "Chain synchronisation reaches the best remote chain", "statement": "After a synchronisation round with a longer remote chain, the local chain should have been upgraded with every remote link above the local height up to the remote head. In the code the requested indices run from the local height to the remote height minus one, so the remote head is never applied and the local head is re-applied.", "quantifier": "all heights and peers", "why_tests_cant": "all pairs of heights", "anchors": ["infrastructure/daemons/chains/application.go:Start"]}
{"id": "C65", "title": "Stopping a daemon stops it", "statement": "After Stop(), a daemon should perform no further rounds. In the code Stop sets the started flag, so in every schedule of Stop calls every later round is still executed.", "quantifier": "all schedules of start, stop and ticks", "why_tests_cant": "temporal property over infinite schedules", "anchors": ["infrastructure/daemons/peers/application.go:Stop", "infrastructure/daemons/chains/application.go:Stop", "infrastructure/daemons/buckets/application.go:Stop"]}
{"id": "C66", "title": "Genesis parameters are bound by the genesis hash", "statement": "Two geneses with equal hash should have the same difficulty parameters and bill. In the code digit strings are concatenated without separators, so (base 1, increase 10.5) and (base 11, increase 0.5) share a hash for every hash function; the bill hash itself is always bound, barring a collision.", "quantifier": "all pairs of geneses", "why_tests_cant": "all parameter pairs", "anchors": ["domain/memory/piastres/genesis/builder.go:Now"]}
{"id": "C67", "title": "Decoding a mined link reports malformed input", "statement": "Decode(text) should fail when the text is not an encoded mined link. In the code the JSON error is dropped: every valid base64 text decodes without error and for malformed JSON the result is an empty link whose Hash() panics. Encode followed by Decode returns the link when its scalars are up to K (C29).", "quantifier": "all texts", "why_tests_cant": "adversarial texts", "anchors": ["domain/memory/piastres/links/mined/adapter.go:Decode"]}
{"id": "C68", "title": "Statements distinguish incoming from outgoing", "statement": "Two wallet statements with different incoming/outgoing entries should have different hashes. In the code the entries are concatenated without marking the side, so swapping a sole entry between sides keeps the hash, and entry descriptions are not part of any hash.", "quantifier": "all statements", "why_tests_cant": "all pairs", "anchors": ["domain/memory/identities/wallets/wallet/statements/builder.go:Now", "domain/memory/identities/wallets/wallet/statements/entries/builder.go:Now"]}
{"id": "C69", "title": "Transaction hashes separate roles", "statement": "A transaction's hash should identify its address, bucket and fees. In the code a bucket-only transaction has the bucket's own hash as its hash, and the same hash is given to transactions in which an equal hash plays another role; creation time never influences any hash.", "quantifier": "all transactions", "why_tests_cant": "all pairs and all hash functions", "anchors": ["domain/memory/piastres/transactions/builder.go:Now", "domain/memory/piastres/transactions/addresses/builder.go:Now"]}
{"id": "C70", "title": "Order never drops or ignores data", "statement": "Order(data) should succeed only if its output is a rearrangement of the given data. This holds on trees with pairwise different leaf hashes; in general it fails: on a tree over the same block twice, Order accepts that block plus an arbitrary foreign one and silently drops the foreign one.", "quantifier": "all trees, all data lists, all hash functions", "why_tests_cant": "all data lists and trees with repeated blocks", "anchors": ["libs/hashtree/hashtree.go:Order"]}
{"id": "C71", "title": "Signature text form round-trips", "statement": "Parsing the text of a signature returns the same signature, for every commitment point k*G, every scalar and every nonce drawn by the parser whose challenge is nonzero.", "quantifier": "all signatures and nonces", "why_tests_cant": "all scalars and nonces", "anchors": ["libs/cryptography/pk/signature/signature.go:String", "libs/cryptography/pk/signature/adapter.go:ToSignature"]}
{"id": "C72", "title": "Key texts round-trip, but key texts are not unique", "statement": "Parsing the text of a public or private key returns an equal key. A private key text should be exactly one key; in the code any hex digits appended to a private key text are accepted and ignored, and a private key above K = 0x877...7 (C122) is written as the text of a key with another public key.", "quantifier": "all keys, all appended texts", "why_tests_cant": "all appended texts", "anchors": ["libs/cryptography/pk/signature/helper.go:fromStringToScalar", "libs/cryptography/pk/signature/privatekey_adapter.go:ToPrivateKey", "libs/cryptography/pk/signature/publickey_adapter.go:ToPublicKey"]}
{"id": "C73", "title": "Lock hash commits to its keys", "statement": "Two locks with the same hash should have the same list of public key hashes. Locks with two or more keys do, barring an explicit collision; a lock with one key has that key as its hash, so it can be given the hash of any other lock.", "quantifier": "all pairs of locks, all hash functions", "why_tests_cant": "all key lists", "anchors": ["domain/memory/piastres/locks/builder.go:Now"]}
{"id": "C74", "title": "Expense hash commits to its content and signatures", "statement": "Two expenses have the same hash exactly when their contents have the same hash and they have the same signatures in the same order (up to the encoding of the scalars), barring an explicit collision; although the texts of the signatures are hashed without separation, they cannot be split in another way.", "quantifier": "all pairs of built expenses", "why_tests_cant": "all pairs", "anchors": ["domain/memory/piastres/expenses/builder.go:Now"]}
{"id": "C75", "title": "Genesis difficulty increase is a positive number", "statement": "The genesis builder should accept exactly positive difficulty parameters. On finite increases it does; NaN and +Inf also pass its check, giving a genesis that cannot be written as JSON.", "quantifier": "all parameters", "why_tests_cant": "all float values including special ones", "anchors": ["domain/memory/piastres/genesis/builder.go:Now", "domain/memory/piastres/genesis/genesis.go:MarshalJSON"]}
{"id": "C76", "title": "State hash commits to its content", "statement": "Two states with the same hash have the same chain, previous state, height and list of transaction hashes, barring an explicit collision.", "quantifier": "all pairs of states", "why_tests_cant": "all pairs", "anchors": ["domain/memory/piastres/states/builder.go:Now"]}
{"id": "C77", "title": "Separate payments are separate bills", "statement": "Two payments should give distinguishable bills. In the code the bill hash covers only lock and amount: all contents that pay the same amount to the same lock, whatever they spend and whenever they are made, produce bills with the same hash.", "quantifier": "all pairs of contents", "why_tests_cant": "all spent bills and times, all hash functions", "anchors": ["domain/memory/piastres/bills/builder.go:Now", "domain/memory/piastres/expenses/content_builder.go:Now"]}
{"id": "C78", "title": "Updating the chain is all or nothing", "statement": "A chain update that is interrupted should leave the old or the new chain retrievable. In the code every update that would be stored can be cut inside its last write so that afterwards no chain can be retrieved.", "quantifier": "all histories, all chains, all interruption points", "why_tests_cant": "crash points inside a write", "anchors": ["domain/memory/piastres/chains/service.go:Update"]}
{"id": "C79", "title": "Saving a mined block again does no harm", "statement": "Saving an object that is already stored should leave its files alone. In the code, as long as no genesis is stored, a second save of the same mined block rewrites the complete file of its block; when that save is interrupted the mined block refers to a torn file.", "quantifier": "all histories without stored genesis, all mined blocks", "why_tests_cant": "crash points in the second of two saves", "anchors": ["domain/memory/piastres/blocks/service.go:Save", "domain/memory/piastres/blocks/mined/service.go:Save", "domain/memory/piastres/blocks/repository.go:Retrieve"]}
{"id": "C80", "title": "Mining works on the application's own chain", "statement": "A node whose store only ever received objects of its own genesis should be able to mine blocks and links on its chain. In the code the chain repository rejects every chain whose genesis is the stored one, so in all such histories, with any faults, both miners write nothing and never return nil.", "quantifier": "all histories, fault schedules and miner inputs", "why_tests_cant": "unbounded histories", "anchors": ["application/miners/current.go:Block", "application/miners/current.go:Link", "domain/memory/piastres/chains/repository.go:Retrieve"]}
{"id": "C81", "title": "File store stays inside its base directory", "statement": "Whatever relative path is given to Save, Retrieve or Delete of the file store, only files below the base path should be touched. This holds for paths without a '..' element; in the code other paths are not refused, so for every file of the system that could be written there is a relative path that saves, reads and deletes it.", "quantifier": "all base paths, relative paths and file systems", "why_tests_cant": "path texts are unbounded, escapes depend on their shape", "anchors": ["libs/file/file_disk_service.go:Save", "libs/file/file_disk_service.go:Delete", "libs/file/file_disk_repository.go:Retrieve"]}
{"id": "C82", "title": "The store used in tests stands for the disk store", "statement": "For every history of calls, the in-memory store used in tests and the disk store should report success on the same calls, retrieve the same contents and list the same names. Without listings this holds for paths that are apart from each other; in the code the test store compares paths as texts and lists other names than the disk store.", "quantifier": "all histories of saves, deletes, retrievals and listings", "why_tests_cant": "a statement relating two implementations over unbounded histories", "anchors": ["libs/file/repository_service_tests.go", "libs/file/file_disk_service.go", "libs/file/file_disk_repository.go"]}
{"id": "C83", "title": "A bucket covers its directory", "statement": "A bucket can be made from a directory exactly when the directory holds at least one regular file, at any depth, and none shorter than one chunk; the files found in the bucket by path are then exactly the regular files of the directory, under their relative paths, each recording chunks that cover its content.", "quantifier": "all directory trees, chunk sizes and contents", "why_tests_cant": "unbounded trees, file lengths relative to the chunk size", "anchors": ["domain/memory/buckets/adapter.go", "domain/memory/buckets/bucket.go:FileByPath"]}
{"id": "C84", "title": "Bucket, file and chunk hashes bind their content", "statement": "Two chunks, files or buckets with the same hash have the same content, barring an explicit collision. For chunks and for buckets of several files this holds; a file hash leaves the boundary between path and chunk hashes open, and a bucket of one file has the hash of the file.", "quantifier": "all pairs of chunks, files and buckets", "why_tests_cant": "all pairs, all hash functions", "anchors": ["domain/memory/buckets/files/builder.go:Now", "domain/memory/buckets/files/chunks/builder.go:Now", "domain/memory/buckets/builder.go:Now"]}
{"id": "C85", "title": "A ring signature is accepted exactly when its challenges close a ring", "statement": "Verify(msg) is true exactly when, starting from the stored challenge e and taking for every ring member the hash of the message and s_i*G + e_i*P_i as the next challenge, one arrives at e again; with enough scalars it is false otherwise.", "quantifier": "all messages, rings, scalars", "why_tests_cant": "all rings and adversarial scalars; a test only sees some accepted and some rejected signatures", "anchors": ["libs/cryptography/pk/signature/ringsignature.go:Verify"]}
{"id": "C86", "title": "An identity survives storage", "statement": "An identity record that is saved and retrieved has the same hash, seed, name, root, wallets, buckets and creation time. In the code this holds for texts that are UTF-8 and a clock not behind the creation time; the time of the last update is replaced by the time of reading.", "quantifier": "all identity records and clock readings", "why_tests_cant": "free text, clocks and all field combinations", "anchors": ["domain/transfers/identities/service.go", "domain/transfers/identities/repository.go", "domain/transfers/identities/adapter.go"]}
{"id": "C87", "title": "Identity files are kept apart by hash and seed", "statement": "After any history of saves and deletes of identities, retrieving by hash and seed gives the identity last saved under them and not deleted since, and nothing when another seed or hash is used; for identities with UTF-8 texts read by a clock not behind their creation (C86), unless the names of two files collide.", "quantifier": "all histories", "why_tests_cant": "unbounded histories", "anchors": ["domain/transfers/identities/service.go", "domain/transfers/identities/repository.go"]}
{"id": "C88", "title": "Wallet records survive JSON", "statement": "Entries, statements, wallet bills and cancellations of bills that were built come back from JSON with equal fields (entries with UTF-8 texts, scalars in reduced encoding); private keys come back as the same numbers, with the same public keys when they are up to K (C122).", "quantifier": "all records", "why_tests_cant": "free text and optional lists", "anchors": ["domain/transfers/identities/wallets/wallet/statements/entries", "domain/transfers/identities/wallets/wallet/statements", "domain/transfers/identities/wallets/wallet/bills"]}
{"id": "C89", "title": "The hash of an identity's bucket covers the bucket", "statement": "Two buckets of an identity with the same hash should have the same content and key, barring a collision. In the code the hash covers the absolute path only.", "quantifier": "all pairs of buckets", "why_tests_cant": "all pairs, all hash functions", "anchors": ["domain/memory/identities/buckets/bucket/builder.go:Now"]}
{"id": "C90", "title": "A session follows its identity", "statement": "After a successful Update the same session should retrieve the updated identity, whatever was changed; a failed Update changes nothing. In the code a changed name or seed loses the session.", "quantifier": "all repositories meeting the contract, all states and updates", "why_tests_cant": "every implementation of the repository", "anchors": ["application/identities/current.go:Update", "application/identities/current.go:Retrieve"]}
{"id": "C91", "title": "Fees can be paid from a wallet", "statement": "Announcing a bucket with fees that the wallet can cover should produce signed expenses. In the code the expenses are signed over their content while locks ask for signatures over the lock's hash, so no fee is ever paid barring a collision; exact amounts are refused and empty wallets panic.", "quantifier": "all wallets, fees, random choices and keys", "why_tests_cant": "all keys and random choices", "anchors": ["application/identities/piastres/current.go:Bucket"]}
{"id": "C92", "title": "A bucket transaction names the bucket's content", "statement": "The transaction announcing a bucket should carry the hash of the bucket. In the code it carries the hash of the path on the user's disk.", "quantifier": "all identities, paths and buckets", "why_tests_cant": "all implementations of the collections", "anchors": ["application/identities/piastres/current.go:Bucket", "domain/memory/identities/buckets/bucket/builder.go:Now"]}
{"id": "C93", "title": "Adding and deleting buckets of an identity", "statement": "After adding a bucket under a path the identity holds it besides everything else and its hash covers it; deleting the same path removes it. In the code the hash of the identity stays behind, and deleting compares path texts, so that a path given in another than its shortest absolute form is not found.", "quantifier": "all states, sessions, paths and buckets", "why_tests_cant": "path texts and every implementation of the repository", "anchors": ["application/identities/buckets/application.go:Add", "application/identities/buckets/application.go:Delete"]}
{"id": "C94", "title": "Files and chunks are found by path and hash", "statement": "FileByPath answers exactly when the bucket has a file under that path, ChunkByHash exactly when the file has a chunk with that hash, and what is found has that path or hash; chunks of the same hash have the same content barring a collision.", "quantifier": "all buckets, files, paths and hashes, duplicates included", "why_tests_cant": "duplicates and all texts", "anchors": ["domain/memory/buckets/bucket.go:FileByPath", "domain/memory/buckets/files/file.go:ChunkByHash"]}
{"id": "C95", "title": "A peer survives its URL", "statement": "A peer turned into a URL and back should be the same peer. This holds exactly for hosts that need no escaping and have no opening bracket first, and ports below 2^63; a bracketed IPv6 host comes back without brackets.", "quantifier": "all hosts, ports and kinds of peer", "why_tests_cant": "all byte strings as hosts", "anchors": ["domain/transfers/peers/peer/adapter.go:ToPeer", "domain/transfers/peers/peer/adapter.go:ToURL"]}
{"id": "C96", "title": "The peers file keeps one line per peer", "statement": "Splitting the saved file gives back exactly the URL of each saved peer in order, so different lists give different files; white space around the URLs, of any kind that Unicode knows, and blank lines are ignored, and nothing else is removed from a line. This needs hosts without line breaks; with a line break in a host one peer reads as two.", "quantifier": "all peer lists", "why_tests_cant": "all lists and hosts", "anchors": ["domain/transfers/peers/service.go:Save", "domain/transfers/peers/repository.go:Retrieve"]}
{"id": "C97", "title": "The chain daemon keeps synchronising", "statement": "A running chain daemon should go on following the network. In the code Start returns after the first round that finds a better chain: in every schedule a daemon that is still running has changed nothing, and after the first change nothing changes any more.", "quantifier": "all schedules, peers and answers", "why_tests_cant": "temporal property over unbounded schedules", "anchors": ["infrastructure/daemons/chains/application.go:Start"]}
{"id": "C98", "title": "One unreachable peer does not prevent synchronisation", "statement": "A peer that cannot be reached should be skipped. In the code any peer that fails ends the daemon with an error or a panic before anything is upgraded or saved, whatever the other peers offer.", "quantifier": "all peer lists, positions of the failing peer and answers of the others", "why_tests_cant": "all combinations of answers", "anchors": ["infrastructure/daemons/chains/application.go:Start", "infrastructure/daemons/peers/application.go:Start"]}
{"id": "C99", "title": "Peer exchange neither loses nor invents peers", "statement": "A successful round stores exactly the known peers and those they named, each once; over any schedule a known peer stays known, and every known peer was named by a chain of peers starting from a known one.", "quantifier": "all schedules, all answers of all peers in every round", "why_tests_cant": "induction over unbounded rounds", "anchors": ["infrastructure/daemons/peers/application.go:Start", "domain/memory/peers/builder.go:Now"]}
{"id": "C100", "title": "The bucket daemon fetches what the identity follows", "statement": "After a successful round every followed bucket has been fetched, handed to the identity in order, and the user retrieves the updated identity. In the code one unavailable bucket means that nothing is saved and the daemon ends.", "quantifier": "all identities, follow lists and answers", "why_tests_cant": "all follow lists and answers", "anchors": ["infrastructure/daemons/buckets/application.go:Start"]}
{"id": "C101", "title": "Public key encryption returns the message", "statement": "A message encrypted with a public key is decrypted by its private key to the same bytes, whatever the random padding and blinding, as long as it is at least 66 bytes shorter than the modulus; longer messages are refused; and nothing but such encryptions decrypts successfully. What is encrypted is the OAEP encoding of RFC 8017 with SHA-256, byte for byte, so that other programs can read it.", "quantifier": "all proper keys, messages, seeds, blinding factors and cipher texts", "why_tests_cant": "all keys of all sizes and all randomness", "anchors": ["libs/cryptography/pk/encryption/public/key.go:Encrypt", "libs/cryptography/pk/encryption/privatekey.go:Decrypt"]}
{"id": "C102", "title": "RSA keys survive their encodings", "statement": "A public or private key written as bytes or text and read back is the same key; what is read as a private key has passed the consistency checks. Exactly those bytes are read as a private key of two primes that are the encoding of its numbers, which satisfy the equations of the library, with a version of at most 1 and, behind the primes, up to three integers, which are not looked at, and anything that begins with a tag and a length.", "quantifier": "all proper keys", "why_tests_cant": "all key sizes", "anchors": ["libs/cryptography/pk/encryption/adapter.go:FromBytes", "libs/cryptography/pk/encryption/adapter.go:ToEncoded", "libs/cryptography/pk/encryption/public/adapter.go:FromBytes"]}
{"id": "C103", "title": "The hash of a public key identifies it", "statement": "Two public keys with the same hash are the same key or exhibit a collision of SHA-512; keys so short that their encoding has exactly 64 bytes are not hashed at all.", "quantifier": "all pairs of keys", "why_tests_cant": "all pairs, all hash functions", "anchors": ["libs/cryptography/pk/encryption/public/adapter.go:ToHash"]}
{"id": "C104", "title": "A public key has one encoding", "statement": "Only the canonical encoding of a public key should be accepted. Bytes behind the exponent inside of the sequence, and line breaks and the unused bits of the last character in the text, are ignored; apart from this the encoding is unique, as bytes and as text.", "quantifier": "all byte strings", "why_tests_cant": "all byte strings", "anchors": ["libs/cryptography/pk/encryption/public/adapter.go:FromBytes", "libs/cryptography/pk/encryption/public/adapter.go:FromEncoded"]}
{"id": "C105", "title": "An imported private key can be used", "statement": "A private key that FromBytes accepts should decrypt or report an error. Keys whose factors have a common divisor are accepted and make every decryption panic, and saving them leaves no bytes; with coprime factors nothing panics.", "quantifier": "all accepted keys, cipher texts and blinding factors", "why_tests_cant": "all keys, crafted ones included", "anchors": ["libs/cryptography/pk/encryption/adapter.go:FromBytes", "libs/cryptography/pk/encryption/privatekey.go:Decrypt"]}
{"id": "C106", "title": "Creating and deleting identities is exact", "statement": "After NewIdentity the identity opens with its name, seed and password and with no other password, has the root given and nothing else, and other identities are unchanged; a taken name and seed is refused. After Delete it is gone and others are unchanged. Failed calls change nothing.", "quantifier": "all repositories that meet their contract, all names, seeds, passwords and states", "why_tests_cant": "all states and all implementations", "anchors": ["application/current.go:NewIdentity", "application/identities/current.go:Delete"]}
{"id": "C107", "title": "A bucket transaction pays every fee and is recorded", "statement": "When Bucket succeeds, its transaction has exactly one expense per fee, in order, over the amount and to the lock of the fee, with the bills fetched for it; the identity returned by the wallets for this transaction is what is saved and found by the session; a failed call changes nothing.", "quantifier": "all identities, fees, random choices and states", "why_tests_cant": "all fee lists and states", "anchors": ["application/identities/piastres/current.go:Bucket"]}
{"id": "C108", "title": "A URL is accepted as a peer exactly when it follows the grammar", "statement": "ToPeer succeeds exactly on texts of the form scheme://user@host:port/path?query#fragment with the scheme https or onion in any case, a non-empty host of permitted characters and escapes (an address in brackets may have a zone behind %25, with escapes of its own), a positive port that fits, well-formed escapes and no control characters in front of the fragment; the peer it returns has the unescaped host and the value of the port, and user, path, query and fragment are dropped.", "quantifier": "all byte strings", "why_tests_cant": "all texts, in both directions", "anchors": ["domain/transfers/peers/peer/adapter.go:ToPeer"]}
{"id": "C109", "title": "Objects are handed over to the transfer packages unchanged", "statement": "The transferred form of a bucket has its hash, its time, the number of its files and a hash tree whose first leaves are the hashes of its files in order; that of a chunk has all its fields; the builders of transferred buckets and states accept exactly the stated amounts and heights and keep every field, and a transferred state comes back from its JSON form.", "quantifier": "all buckets, chunks, states and amounts", "why_tests_cant": "all amounts up to 2^64 and all list lengths", "anchors": ["domain/memory/buckets/adapter.go:ToTransfer", "domain/transfers/buckets/builder.go:Now", "domain/transfers/piastres/states/builder.go:Now", "domain/transfers/piastres/states/state.go:createStateFromJSON"]}
{"id": "C110", "title": "The path of an identity's bucket does not depend on the working directory", "statement": "The path kept with a bucket of an identity starts with a slash and denotes, read in any working directory, the location that the given path denoted when the bucket was built, where something existed; building again from the kept path gives the same path and hash.", "quantifier": "all paths, working directories and file systems", "why_tests_cant": "all path texts with dots, double dots and repeated slashes", "anchors": ["domain/memory/identities/buckets/bucket/builder.go:Now"]}
{"id": "C111", "title": "Signatures made with the vendored curve code recover the signer", "statement": "With the vendored edwards25519 code, a private key of 32 bytes up to K = 0x877...7 (an 8 and 63 sevens) signs every message, the text of the signature is read back with the same text, and the public key recovered from it for the message is the public key of the signer, whatever random numbers are drawn while checking, unless a challenge is zero.", "quantifier": "all private keys up to K, messages, random numbers; SHA-256 is any function to 32 bytes", "why_tests_cant": "all 2^255 keys through the limb arithmetic, carries included", "anchors": ["libs/cryptography/pk/signature/privatekey.go:Sign", "libs/cryptography/pk/signature/signature.go:PublicKey", "libs/cryptography/pk/signature/adapter.go:ToSignature"]}
{"id": "C112", "title": "Ring signatures made with the vendored curve code verify", "statement": "With the vendored edwards25519 code, a private key of 32 bytes up to K = 0x877...7 (an 8 and 63 sevens) signs every message in every ring of keys read from texts that contains its own public key: the signature has this ring, verifies, and so does the signature read back from its text. Without the key in the ring it is refused with an error, and nothing panics.", "quantifier": "all private keys up to K, messages, rings of any length, with repetitions and keys outside of the prime order group", "why_tests_cant": "all keys and rings through the limb arithmetic", "anchors": ["libs/cryptography/pk/signature/privatekey.go:RingSign", "libs/cryptography/pk/signature/ringsignature.go:Verify", "libs/cryptography/pk/signature/ringsignature_adapter.go:ToSignature"]}
{"id": "C113", "title": "Which texts are public keys", "statement": "A text is accepted as a public key exactly when it consists of 64 hexadecimal digits whose low 255 bits are the ordinate of a point of edwards25519; the key is written as 64 digits that are read as a key with the same text.", "quantifier": "all byte strings", "why_tests_cant": "membership of 2^255 ordinates, square roots in a field of 2^255 - 19 elements", "anchors": ["libs/cryptography/pk/signature/publickey_adapter.go:ToPublicKey", "libs/cryptography/pk/signature/helper.go:fromStringToPoint", "libs/cryptography/pk/signature/publickey.go:String"]}
{"id": "C114", "title": "A public key has one text", "statement": "Two different texts (in lower case) should be two different keys. Texts with unreduced ordinates, and with the sign of a zero abscissa, are accepted and denote keys that have another text; the texts that String writes are exactly the others.", "quantifier": "all byte strings of 32 bytes", "why_tests_cant": "all encodings", "anchors": ["libs/cryptography/pk/signature/publickey_adapter.go:ToPublicKey", "libs/cryptography/pk/signature/publickey.go:String"]}
{"id": "C115", "title": "An accepted public key belongs to a private key", "statement": "Every accepted public key should be the public key of some private key, and only its holder should be able to sign for it. The point (0, -1) is accepted although no private key has it, and anybody can sign for it with a commitment whose challenge is even.", "quantifier": "all private keys, commitments and messages", "why_tests_cant": "absence of a private key among 2^256", "anchors": ["libs/cryptography/pk/signature/publickey_adapter.go:ToPublicKey", "libs/cryptography/pk/signature/ringsignature.go:Verify"]}
{"id": "C116", "title": "Created private keys are usable", "statement": "Create returns the first number between 1 and the group order found in the random stream; it is read back from its text as the same key, and signs and ring-signs without further conditions on the key.", "quantifier": "all random streams, messages and rings", "why_tests_cant": "all outputs of the random stream", "anchors": ["libs/cryptography/pk/signature/privatekey_factory.go:Create", "libs/cryptography/pk/signature/privatekey_adapter.go:ToPrivateKey"]}
{"id": "C117", "title": "Signatures do not reveal the private key", "statement": "The signatures of a key should not determine its private key. Signing the same message in two rings, or with Sign and in a ring, reuses one secret number, and the private key is a quotient of published numbers as soon as the two challenges differ. Plain signatures of one message are all the same.", "quantifier": "all keys, messages, rings and random numbers", "why_tests_cant": "an algebraic relation between all pairs of signatures", "anchors": ["libs/cryptography/pk/signature/privatekey.go:RingSign", "libs/cryptography/pk/signature/privatekey.go:Sign", "libs/cryptography/pk/signature/helper.go:genK"]}
{"id": "C118", "title": "What a ring signature contains", "statement": "A ring signature keeps the ring and has one number per key: the numbers of the other keys are hashes of the message, their position and the private key, that of the first occurrence of the signer closes the ring. It should not tell who signed, but a plain signature of the same message by the signer has the commitment of the signer's position.", "quantifier": "all keys, messages and rings", "why_tests_cant": "all ring sizes and positions", "anchors": ["libs/cryptography/pk/signature/privatekey.go:RingSign"]}
{"id": "C119", "title": "The public key is the multiple of the base point", "statement": "The public key of a private key x up to K = 0x877...7 is written as the coordinates of x times the base point in the group of the curve -x^2 + y^2 = 1 - (121665/121666) x^2 y^2; two private keys have the same public key exactly when they are congruent modulo the group order.", "quantifier": "all private keys up to K", "why_tests_cant": "all keys through 64 rounds of windowed multiplication", "anchors": ["libs/cryptography/pk/signature/privatekey.go:PublicKey"]}
{"id": "C120", "title": "What Verify checks, on the vendored curve", "statement": "A ring signature read from a text, whatever its numbers, is accepted for a message exactly when there are challenges for all positions, starting and ending with the one in the signature, each the SHA-256 hash modulo the group order of the message and the text of s*B + e*P of the position before, computed in the group of the curve (for a number s above K = 0x877...7 the factor is s without its most significant signed digit).", "quantifier": "all texts and messages", "why_tests_cant": "both directions, all rings", "anchors": ["libs/cryptography/pk/signature/ringsignature.go:Verify", "libs/cryptography/pk/signature/ringsignature_adapter.go:ToSignature"]}
{"id": "C121", "title": "Which accepted public keys have an owner", "statement": "A key that is accepted is the public key of a private key exactly when its multiple by the group order L is the neutral element. Exactly 8L different keys are accepted and exactly L of them have a private key, so seven out of eight accepted keys belong to nobody.", "quantifier": "all texts of keys", "why_tests_cant": "counts over 2^255 keys, absence of private keys", "anchors": ["libs/cryptography/pk/signature/publickey_adapter.go:ToPublicKey", "libs/cryptography/pk/signature/privatekey.go:PublicKey"]}
{"id": "C122", "title": "Exactly which private keys work", "statement": "Every text of 64 hex digits is accepted as a private key. The public key recovered from its signatures is its own, and its text is read back as a key with the same public key, if and only if the key is at most K = 0x877...7 (an 8 and 63 sevens); a larger key signs in the ring of its own public key, but such a signature verifies only by a collision or a zero challenge.", "quantifier": "all private keys and messages", "why_tests_cant": "2^256 keys, absence of valid signatures", "anchors": ["libs/cryptography/pk/signature/privatekey.go:Sign", "libs/cryptography/pk/signature/privatekey_adapter.go:ToPrivateKey", "vendor/go.dedis.ch/kyber/v3/group/edwards25519/ge.go:geScalarMult"]}
{"id": "C123", "title": "Stored texts are read back", "statement": "For every kind of stored object (locks, bills, expenses, genesis, transactions, blocks, mined blocks, links, mined links, chains, states, identities, wallets, statements, entries, wallet bills, cancels) the JSON text written for an object is read back as the same fields; a text is written exactly for creation times in the years 0 to 9999 (and, for a genesis, a finite difficulty).", "quantifier": "all objects", "why_tests_cant": "all strings, numbers, times and lists, through escaping and parsing", "anchors": ["domain/transfers/piastres/bills/adapter.go:ToJSON", "domain/transfers/piastres/bills/adapter.go:ToBill", "domain/transfers/piastres/genesis/adapter.go:ToJSON", "domain/transfers/identities/adapter.go:ToJSON"]}
{"id": "C124", "title": "A damaged file is noticed", "statement": "A file that holds only a strict prefix of a written text, as an interrupted write leaves it, or a written text followed by anything but white space, is not accepted as an object of any kind.", "quantifier": "all objects, all cuts and tails", "why_tests_cant": "every cut position of every text", "anchors": ["libs/file/file_disk_service.go:Save", "libs/file/file_disk_repository.go:Retrieve"]}
{"id": "C125", "title": "Saved objects come back from the bytes on disk", "statement": "With files as bytes, after any history of saves with failing, cut and interrupted writes: what was retrievable stays retrievable, an object whose save returned nil is retrieved by its hash, and an interrupted save of an object whose times are in the years 0 to 9999 can be repeated successfully. Every built object should be savable, but one whose creation time is outside of these years never is.", "quantifier": "all histories, objects and faults", "why_tests_cant": "all fault schedules on all byte contents", "anchors": ["domain/memory/piastres/locks/service.go:Save", "domain/memory/piastres/blocks/mined/service.go:Save", "libs/file/file_disk_service.go:Save"]}
{"id": "C126", "title": "Only the written bytes give the object", "statement": "A file with other bytes than those written should not be read as a valid object. But white space around the text changes nothing, members may be left out (a missing creation time becomes the year 1), a member that is repeated, in any letter case, replaces the written one if it comes last and is ignored if it comes first, and members under names that no object has are skipped.", "quantifier": "all objects and inserted values", "why_tests_cant": "infinitely many texts for one object", "anchors": ["domain/transfers/piastres/bills/adapter.go:ToBill", "domain/transfers/piastres/locks/adapter.go:ToLock"]}
{"id": "C127", "title": "What is left after a fee stays with the payer", "statement": "What is left of the bills that pay a fee should go to a key that the payer keeps. In the code it goes to a lock with a freshly drawn key, whose private half influences nothing that Bucket answers or saves; the payer's ring keys are in that lock too only if the random number is smaller than the number of bills, and then bills with a ring key in common are refused.", "quantifier": "all fees, bills, random numbers and keys", "why_tests_cant": "absence of the key in everything that is kept, for all keys and runs", "anchors": ["application/identities/piastres/current.go:Bucket"]}
{"id": "C128", "title": "Objects survive their texts", "statement": "The JSON text of a hash tree, compact tree, lock, bill, expense, content, address, genesis, transaction, block or link is read as the same object (signature scalars in reduced encoding, see C29); there is a text exactly for times in the years 0 to 9999 and a finite difficulty, and always for trees. A text that was cut off is refused with an error.", "quantifier": "all built objects and all cuts", "why_tests_cant": "all strings, numbers, times and nested lists, through escaping and parsing", "anchors": ["libs/hashtree/hashtree.go:UnmarshalJSON", "libs/hashtree/compact.go:UnmarshalJSON", "libs/hashtree/builder.go:Now", "domain/memory/piastres/links/link.go:UnmarshalJSON"]}
{"id": "C129", "title": "A hash tree that was read belongs to its head", "statement": "A hash tree read with WithJS should have the leaves that its head commits to, or be refused. In the code nothing is compared: any head can be put on any tree, and data is then ordered by the wrong tree; a text without a node makes the builder panic. Rebuilding the tree from its leaves and comparing heads would tell, barring a collision.", "quantifier": "all trees and heads", "why_tests_cant": "all pairs of trees; the absence of a check shows only on forged texts", "anchors": ["libs/hashtree/hashtree.go:UnmarshalJSON", "libs/hashtree/hashtree.go:createHashTreeFromJSON", "libs/hashtree/builder.go:Now"]}
{"id": "C130", "title": "Any spelling of a string is read as that string", "statement": "A string between quotes can be spelled in many ways: characters as themselves, short escapes, numbers in either letter case, surrogate pairs. Every such literal is accepted and read as the string it stands for, in names and in values: a bill respelled this way is read as the same bill. Times are the exception: a time spelled with an escape is refused.", "quantifier": "all strings and all spellings", "why_tests_cant": "infinitely many literals per string", "anchors": ["domain/transfers/piastres/bills/adapter.go:ToBill", "domain/transfers/piastres/genesis/adapter.go:ToGenesis"]}
{"id": "C131", "title": "Only bills of the chain are spent", "statement": "An expense in an accepted block should spend the genesis bill or a bill made by an earlier block. In the code nothing looks for the spent bills: anybody with a key can make a bill of any amount for themselves and spend it in an accepted block of any genesis. What is checked is that the listed bills cover the payment and that each comes with a signature opening its lock.", "quantifier": "all geneses, chains, keys, amounts and recipients", "why_tests_cant": "all chains so far and all made-up bills", "anchors": ["domain/memory/piastres/expenses/builder.go:Now", "domain/memory/piastres/transactions/builder.go:Now", "domain/memory/piastres/blocks/builder.go:Now"]}
{"id": "C132", "title": "A bill is spent once", "statement": "No bill should be spent by two expenses of the accepted blocks. In the code, from any accepted expense anybody can make, without a key, another one that spends the same bills with the same signatures in favour of any lock; both are accepted together in one block, and in two blocks.", "quantifier": "all accepted expenses and all second recipients", "why_tests_cant": "the absence of a check over all pairs of expenses", "anchors": ["domain/memory/piastres/expenses/builder.go:Now", "domain/memory/piastres/blocks/builder.go:Now"]}
{"id": "C133", "title": "Two payments make two bills", "statement": "Two payments should make two bills with different hashes, since bills are stored and found by hash. In the code payments of equal amounts to the same lock make bills of the same hash, whatever they were paid from, and paying a bill to its own lock makes the spent bill again; only payments that differ in lock or amount make different bills (barring a collision).", "quantifier": "all payments", "why_tests_cant": "all pairs of payments", "anchors": ["domain/memory/piastres/expenses/content_builder.go:Now", "domain/memory/piastres/bills/builder.go:Now"]}
{"id": "C134", "title": "A chain hangs together", "statement": "The root and head blocks of an accepted chain should be blocks of its genesis, its first link should follow its root. In the code a chain with any genesis, root and head is accepted as soon as the total is at least the number of transactions in the two blocks: the genesis can be exchanged, the head can follow anything, the total can be raised at will.", "quantifier": "all chains", "why_tests_cant": "all combinations of genesis, root and head", "anchors": ["domain/memory/piastres/chains/builder.go:Now", "domain/memory/piastres/links/builder.go:Now"]}
{"id": "C135", "title": "A changed file is noticed when it is retrieved", "statement": "Retrieving an object should compare the hash that was asked for and the hash in the file with the object, and refuse a file with missing members. In the code stored hashes are never compared with anything and can be replaced at will in all files at once, a copied file is retrieved under its new name as well, missing references are read as the hash of the empty text, and a block or state file without its transactions makes the retrieval panic. Refused are files without a mandatory number, list of keys, bills or signatures.", "quantifier": "all stores, all written objects, all sets of missing members", "why_tests_cant": "all files and all subsets of their members", "anchors": ["domain/memory/piastres/locks/repository.go:Retrieve", "domain/memory/piastres/bills/repository.go:Retrieve", "domain/memory/piastres/blocks/repository.go:Retrieve", "domain/memory/piastres/states/repository.go:Retrieve", "domain/transfers/piastres/blocks/block.go:createBlockFromJSON"]}
{"id": "C136", "title": "What was saved is what is retrieved", "statement": "After a lock, bill, transaction or block was saved without an error, retrieving it by its hash should return it, whatever others saved before. In the code a lock with one key, and a transaction about one bucket, have the hash of that key or bucket. Anyone who knows the hash of a lock with several keys or of a transaction can save another one with the same hash first; the real one is then saved without an error and without a write, and bills and blocks are retrieved with the other one inside, under the same hash and without the fees. No hash collision is needed. When nothing could be retrieved under the hash before, and the parts that could are retrieved as they are, the lock, bill, transaction without address or block that was saved is the one retrieved.", "quantifier": "all stores, locks, bills, transactions and blocks, all hash functions", "why_tests_cant": "all objects and earlier contents of the store", "anchors": ["domain/memory/piastres/locks/service.go:Save", "domain/memory/piastres/transactions/service.go:Save", "domain/memory/piastres/blocks/service.go:Save", "domain/memory/piastres/locks/builder.go:Now", "libs/hash/adapter.go:FromBytes"]}
{"id": "C137", "title": "Saves running at the same time all take effect", "statement": "Any number of service calls that run at the same time should have the effect of running one after the other: each save returns without an error, and once no call has a file open, everything whose save returned nil can be retrieved, together with everything that could be retrieved before. This holds for every order of the steps of the calls, as long as no two different objects with the same hash are saved. In the code a save whose object is being written by another call writes the file again: in the meantime a saved lock cannot be retrieved, and for good when that call is killed. Two locks with the same keys built at different times, saved at once, both return nil and leave a file that nobody can read.", "quantifier": "any number of calls, all interleavings of the single file reads, openings and writes they make, all stores left by orderly histories with faults", "why_tests_cant": "all interleavings of any number of calls", "anchors": ["domain/memory/piastres/locks/service.go:Save", "domain/memory/piastres/bills/service.go:Save", "domain/memory/piastres/expenses/service.go:Save", "domain/memory/piastres/transactions/service.go:Save", "domain/memory/piastres/blocks/service.go:Save", "domain/memory/piastres/blocks/mined/service.go:Save", "domain/memory/piastres/links/service.go:Save", "libs/file/file_disk_service.go:Save"]}
{"id": "C138", "title": "Retrieving among saves never returns a wrong object, and saving again repairs", "statement": "A retrieval that runs while any number of other calls save, while writes fail, and after processes were killed in the middle of any of this, returns the object with the hash asked for (up to times, which are not hashed) or an error: never another object, a mixture of several, or a panic. Whatever such rounds have left, saving an object once more, alone and without faults, succeeds and makes it retrievable.", "quantifier": "any number of rounds, of calls in each round, all interleavings of single file reads, openings and writes, all failures of writes and kills", "why_tests_cant": "all interleavings and all failures", "anchors": ["domain/memory/piastres/locks/repository.go:Retrieve", "domain/memory/piastres/bills/repository.go:Retrieve", "domain/memory/piastres/expenses/repository.go:Retrieve", "domain/memory/piastres/transactions/repository.go:Retrieve", "domain/memory/piastres/blocks/repository.go:Retrieve", "domain/memory/piastres/links/repository.go:Retrieve", "domain/memory/piastres/blocks/service.go:Save", "libs/file/file_disk_service.go:Save"]}
{"id": "C139", "title": "Entries, statements, wallet bills and cancels come back from their files", "statement": "After any sequence of Save and Delete calls on the services of entries, statements, bills of wallets and cancels, successful or not, Retrieve with a hash returns the record that was last saved under that hash by a call that returned nil (texts must be valid UTF-8; private keys and signatures come back with the same numbers), an error if it was deleted last, and otherwise what it returned at the start. A save returns nil exactly when the creation time is in the years 0 to 9999 and the file can be written, and changes nothing otherwise.", "quantifier": "all histories of calls, all file systems and base directories, all records", "why_tests_cant": "all histories and all records", "anchors": ["domain/transfers/identities/wallets/statements/entries/service.go:Save", "domain/transfers/identities/wallets/statements/entries/repository.go:Retrieve", "domain/transfers/identities/wallets/statements/service.go:Save", "domain/transfers/identities/wallets/bills/service.go:Save", "domain/transfers/identities/wallets/bills/repository.go:Retrieve", "domain/transfers/piastres/cancels/service.go:Save", "domain/transfers/piastres/cancels/repository.go:Retrieve"]}
{"id": "C140", "title": "Who holds the keys can pay, and the payee can pass it on", "statement": "Whoever holds bills whose locks are made of rings that contain their public keys can pay any amount up to the total (below 2^64) to any lock: signing each lock, building the content, the expense, a transaction and a block all succeed, the payee's bill has exactly the amount and the rest exactly what is left. The block is read as the same block on another node. A bill can go through any number of hands this way, each payee being able to spend what the one before paid.", "quantifier": "all keys, rings, sets of bills, amounts, chains of payees of any length, all curves and hash functions", "why_tests_cant": "all keys, amounts and chains of payments of any length", "anchors": ["domain/memory/piastres/expenses/content_builder.go:Now", "domain/memory/piastres/expenses/builder.go:Now", "domain/memory/piastres/locks/lock.go:Unlock", "libs/cryptography/pk/signature/privatekey.go:RingSign", "domain/memory/piastres/transactions/builder.go:Now", "domain/memory/piastres/blocks/builder.go:Now"]}
{"id": "C141", "title": "Changes of an identity made at the same time are all kept", "statement": "When several calls of one user change the identity at the same time (adding, deleting and paying for buckets, changing name, seed, root or password, rounds of the bucket daemon), each call that returned nil should have taken effect in the end. In the code nothing is locked between retrieving and updating, and adding or deleting a bucket leaves the hash under which the update is made as it was: of two additions that overlap one is lost though both return nil, and a bucket deleted while another is added is back. What holds: a bucket is kept by all calls that retrieve the identity after its addition has returned, nothing appears that was not added, and a call whose identity was meanwhile replaced by one with another hash fails and changes nothing.", "quantifier": "any number of calls, all interleavings of their retrievals and updates, all implementations of the identity repository and service", "why_tests_cant": "all interleavings of any number of calls", "anchors": ["application/identities/buckets/application.go:Add", "application/identities/buckets/application.go:Delete", "application/identities/piastres/current.go:Bucket", "application/identities/current.go:Update", "infrastructure/daemons/buckets/application.go:Start"]}
{"id": "C142", "title": "Peers added at the same time are all kept", "statement": "When several peers are added at the same time, or while the peer daemon does its round, each one whose addition returned nil should be in the list in the end. In the code nothing is locked between retrieving and saving the list: of two additions that overlap one is lost though both return nil, and a peer added during a round of the daemon, which asks every known peer over the network, is dropped at its end. What holds: peers that were in the list at the beginning are never lost, an added peer is kept by all calls and rounds that retrieve the list after its addition has returned, and no peer appears that was neither added nor named by a remote node.", "quantifier": "any number of additions and rounds, all interleavings of their retrievals and saves, all answers of remote nodes, all orders of maps", "why_tests_cant": "all interleavings of any number of calls", "anchors": ["application/peers/application.go:SaveClear", "application/peers/application.go:SaveOnion", "infrastructure/daemons/peers/application.go:Start"]}
{"id": "C143", "title": "A ring signature does not tell who signed", "statement": "RingSign follows the scheme of Abe, Ohkubo and Suzuki, in which the signer draws a number of its own and one for every other key. Any signature that verifies over a ring (one reduced number per key) is made by every member of the ring with exactly one choice of these numbers, and every choice gives one signature that verifies: between the draws of any two members there is a one-to-one correspondence with equal signatures, so that with random draws nothing tells who signed. In the code the numbers are not drawn but hashes of message, position and private key, so that two signatures of one message by one key in different rings have the same numbers outside the signer's positions.", "quantifier": "all rings with arbitrary other points, messages, members, signatures and draws, all hash functions", "why_tests_cant": "all signatures and all random choices", "anchors": ["libs/cryptography/pk/signature/privatekey.go:RingSign", "libs/cryptography/pk/signature/ringsignature.go:Verify"]}
{"id": "C144", "title": "The hash of a chain commits to everything in it", "statement": "Two chains with the same hash should be the same chain, down to the bills, keys and signatures in their blocks. In the code the hash commits to a structure in which an object with a single part cannot be told from that part: for every chain there is another one that is accepted, has the same hash, head hash and mining text, and whose head transactions have the same hashes but neither addresses nor fees; in the same way a lock can be exchanged for one with a single key. Nothing else can be exchanged: a relation that compares chains part by part, down to the keys of the locks, is proved to hold exactly for the chains with the same hash, barring an explicit collision of two texts hashed in them. The same is proved for locks, bills, contents, expenses, geneses, addresses, transactions, blocks and links.", "quantifier": "all pairs of chains, all hash functions, all curves", "why_tests_cant": "all pairs of chains with all their parts", "anchors": ["domain/memory/piastres/chains/builder.go:Now", "domain/memory/piastres/blocks/builder.go:Now", "domain/memory/piastres/transactions/builder.go:Now", "domain/memory/piastres/expenses/content_builder.go:Now", "domain/memory/piastres/locks/builder.go:Now", "libs/hash/adapter.go:FromBytes"]}
{"id": "C145", "title": "Only files that nobody saved bring the node down", "statement": "Retrieving a lock, a bill or the genesis never panics, whatever is in the files. Retrieving an expense panics exactly when its file and those of its bills can be read and a signature, after ones that open their bills, has a ring of exactly the keys of its bill and fewer scalars than ring members; a block or a state exactly when its file has no tree of hashes, one with a missing leaf, without leaves or with a number of leaves that is not a power of two, one with fewer hashes than the amount says, or when one of its transactions panics; transactions, mined blocks, links, mined links and the chain exactly when something they retrieve panics. The services write no such file: starting from a store without one, nothing that any number of saves of built objects and retrievals at the same time leave behind, after failed writes and kills in any number of rounds, makes a retrieval panic, and none of these calls panics.", "quantifier": "all contents of files, all hashes; all stores, all calls, all interleavings, failures and kills", "why_tests_cant": "all contents of all files and all interleavings of any number of calls", "anchors": ["domain/memory/piastres/locks/repository.go:Retrieve", "domain/memory/piastres/expenses/repository.go:Retrieve", "domain/memory/piastres/transactions/repository.go:Retrieve", "domain/memory/piastres/blocks/repository.go:Retrieve", "domain/memory/piastres/states/repository.go:Retrieve", "domain/memory/piastres/chains/repository.go:Retrieve", "libs/hashtree/leaves.go:HashTree", "libs/hashtree/compact.go:createCompactFromJSON", "libs/cryptography/pk/signature/ringsignature.go:Verify", "domain/memory/piastres/blocks/service.go:Save"]}
{"id": "C146", "title": "The blocks are enough to audit the money", "statement": "Whoever reads the blocks of a chain can audit its money by hashes alone, which no builder does: keep a list that begins with the genesis bill, take out, for each bill an expense lists, one with the same hash, and put in what was paid and given back. The blocks pass exactly when, up to every expense, no hash is listed more often than it was there or made before, and what is left does not depend on which of several bills with one hash was taken. If they pass, what is left is worth exactly the genesis bill, in whole numbers and whatever was paid to whom; the bills made are exactly those spent and those left; and the signature beside every listed bill opens the lock of the genesis bill or of a bill paid before, so nobody but holders of keys of that lock spent it. The only exceptions are two explicit texts with the same SHA-512 value, or a value of SHA-512 that is itself used as a public key. That the builders accept blocks that do not pass is proved, too.", "quantifier": "all geneses, all lists of accepted blocks and expenses of any length, all orders of taking bills, all curves and hash functions", "why_tests_cant": "all histories of blocks of any length", "anchors": ["domain/memory/piastres/expenses/content_builder.go:Now", "domain/memory/piastres/expenses/builder.go:Now", "domain/memory/piastres/bills/builder.go:Now", "domain/memory/piastres/locks/builder.go:Now", "domain/memory/piastres/locks/lock.go:Unlock", "domain/memory/piastres/transactions/builder.go:Now", "domain/memory/piastres/blocks/builder.go:Now"]}
{"id": "C147", "title": "Exactly which texts of other nodes bring a node down", "statement": "Reading the JSON text of a lock or an address never panics. The text of a bill, a content or a genesis panics exactly when an object in it is missing where it is needed and everything that is read before it can be read; the text of an expense panics so, too, and also when all of it can be read and a signature, after ones that open their bills, has a ring of exactly the keys of its bill and fewer scalars than ring members; transactions, blocks, links and encoded mined links panic exactly when the first of their parts that cannot be read panics. When nothing is missing except optional parts and every signature has a scalar for each ring member nothing panics, whatever else is wrong; in particular no text that a node encodes from a mined link out of the builders makes another node panic on decoding.", "quantifier": "all texts, all structures, all panics, all mined links, all curves and hash functions", "why_tests_cant": "all texts of any length", "anchors": ["domain/memory/piastres/bills/bill.go:createBillFromJSON", "domain/memory/piastres/genesis/genesis.go:createGenesisFromJSON", "domain/memory/piastres/expenses/content.go:createContentFromJSON", "domain/memory/piastres/expenses/expense.go:createExpenseFromJSON", "domain/memory/piastres/transactions/transaction.go:createTransactionFromJSON", "domain/memory/piastres/blocks/block.go:createBlockFromJSON", "domain/memory/piastres/links/link.go:createLinkFromJSON", "domain/memory/piastres/links/mined/adapter.go:Decode", "libs/cryptography/pk/signature/ringsignature.go:Verify"]}
{"id": "C148", "title": "Members left out of the texts of other nodes and of identity files", "statement": "A text of another node or a file of an identity with a member left out should be refused. In the code whatever members are left out of the JSON text of a lock, bill, content, expense, address, transaction, genesis, block, link or mined link, or of the file of an entry, statement, wallet bill, wallet, identity or cancel, it is read, the missing ones as zero values and all others as written. An encoded mined link without its creation time is decoded under the same hash and dated to the year 1, without its mining text it is decoded with an empty one, without its link decoding panics. An identity file without the hash, the wallets, the buckets or the creation time is retrieved as an identity without them, under the hash of the empty text or the stored hash; only without seed, name or root is it refused.", "quantifier": "all written objects, all sets of missing members", "why_tests_cant": "all objects and all subsets of their members", "anchors": ["domain/memory/piastres/links/mined/adapter.go:Decode", "domain/memory/piastres/links/mined/link.go:createLinkFromJSON", "domain/transfers/identities/identity.go:createIdentityFromJSON", "domain/transfers/identities/json_identity.go:JSONIdentity"]}
{"id": "C149", "title": "An encrypted identity file gives what was saved, or an error", "statement": "Reading an encrypted identity file with the password should give the identity that was saved, or an error. In the code the encryption does not notice changes: without the password, and knowing nothing but the position at which the list of wallets begins in the text, anybody who can write the file can cut it off there so that it is read without an error as the same identity, under the same hash, seed, name and root, but without wallets and buckets and dated to the year 1. What holds: when nobody changes the file, the identity is read as it was saved, apart from the time of the last update, whatever else is saved and deleted in between; saving succeeds exactly when the file can be written and the creation time lies in the years 0 to 9999; reading never panics, whatever is in the file and whatever the password.", "quantifier": "all identities out of the builder, passwords, initial blocks, disks, sequences of other calls and contents of files, all ciphers and hash functions", "why_tests_cant": "all files somebody may put there, all passwords", "anchors": ["domain/transfers/identities/service.go:Save", "domain/transfers/identities/repository.go:Retrieve", "libs/file/encrypted_file_disk_service.go:Save", "libs/file/encrypted_file_disk_repository.go:Retrieve", "libs/cryptography/encryption/encryption.go:Decrypt"]}
{"id": "C150", "title": "The addresses that were saved can be retrieved", "statement": "An address that was saved should be what is retrieved under its hash. In the code the hash covers neither the roles of the members nor the creation time, and saving does not look for a file with the same hash: for every address there is another one, with the same members in other roles, that replaces it when it is saved and is retrieved in its place; and whatever address is in the file of a hash is retrieved, whether it has that hash or not. What holds: after any history of calls the address that was last saved under a hash is retrieved whole; every address that was saved is retrieved as itself or as one that was saved with the same members, or with a sole member that is the hash of the other, unless the hashed texts of the two are different texts with the same SHA-512 value. Saving succeeds exactly when the file can be written and the creation time lies in the years 0 to 9999; retrieving never panics, whatever is in the files.", "quantifier": "all addresses out of the builder, file systems, hashes and histories of saves of any length, all hash functions", "why_tests_cant": "all histories of any length and all contents of files", "anchors": ["domain/memory/piastres/transactions/addresses/service.go:Save", "domain/memory/piastres/transactions/addresses/repository.go:Retrieve", "domain/memory/piastres/transactions/addresses/adapter.go:ToAddress", "domain/memory/piastres/transactions/addresses/builder.go:Now", "libs/file/file_disk_service.go:Save"]}
{"id": "C151", "title": "How many files a retrieval reads", "statement": "Retrieving an object should take work in proportion to the files it consists of, and not to the length of the chain. In the code a retrieval that succeeds reads exactly one file for the object and those of its parts, counted each time a part occurs: two for a bill, three for the genesis, for a block one, the genesis and its transactions, for a link one more than its block and nothing of the links before it, for the chain one, the genesis, the root and the last link. Whatever the files contain and however it ends, a retrieval reads at most 2n+5 files for an expense, 1+n(2n+5) for a transaction and 4+n(1+n(2n+5)) for a block when no file lists more than n references. But a part that is listed several times is read again each time: for every stored expense a block with i times a transaction with j times this fee is accepted, saving it adds two files, and retrieving it reads 4+i(1+j k) files, where k are those of the expense.", "quantifier": "all stores, hashes, objects and numbers of repetitions, all curves and hash functions", "why_tests_cant": "all contents of files, all sizes of objects", "anchors": ["domain/memory/piastres/blocks/repository.go:Retrieve", "domain/memory/piastres/transactions/repository.go:Retrieve", "domain/memory/piastres/transactions/repository.go:RetrieveAll", "domain/memory/piastres/expenses/repository.go:Retrieve", "domain/memory/piastres/links/repository.go:Retrieve", "domain/memory/piastres/chains/repository.go:Retrieve", "domain/memory/piastres/states/repository.go:Retrieve"]}
{"id": "C152", "title": "Times of other time zones survive storage", "statement": "An object that a node accepted from the text of another node should come back from the disk with its creation time, whatever time zone the other node wrote. Nothing turns received times into UTC: the file gets the zone of the text. In the code (with the time package of Go 1.13 to 1.15) every time that was read can be written, and it is read again as the same instant in the same zone exactly when the zone is less than 100 hours away from UTC. A zone such as +99:99 is accepted, saved without an error as +100:39, and the file, of any kind of object, cannot be read any more.", "quantifier": "all texts of times, all zones, all objects of the eleven kinds of files, all texts of locks", "why_tests_cant": "all zones and all times; the tests use the clock in UTC only", "anchors": ["domain/memory/piastres/locks/json_lock.go:JSONLock", "domain/memory/piastres/locks/adapter.go:ToLock", "domain/transfers/piastres/locks/json_lock.go:jsonLock", "domain/transfers/piastres/bills/json_bill.go:jsonBill", "domain/transfers/piastres/links/json_link.go:jsonLink", "libs/entities/immutable_builder.go:Now"]}
{"id": "C153", "title": "Power failures", "statement": "Once a save returned nil, the object should survive a power failure. In the code nothing is synced to the disk, so it need not: when every file can be lost, damaged or go back to an earlier content by itself, everything can be gone after a save that returned nil, the chain can be an earlier one, and the file of a bill can be complete while that of its lock, written before it, is lost. What holds: after any number of calls at the same time, failed writes and power failures, a retrieval returns the object or an error, never anything else, and never panics; and saving the objects again, one after the other, the genesis first when it is lost, returns nil each time and makes all of them retrievable, together with everything that still was.", "quantifier": "all histories of concurrent calls, failed writes and power failures, all losses of files", "why_tests_cant": "power failures at all points and with all losses cannot be tried", "anchors": ["libs/file/file_disk_service.go:Save", "domain/memory/piastres/bills/service.go:Save", "domain/memory/piastres/blocks/service.go:Save", "domain/memory/piastres/genesis/service.go:Save", "domain/memory/piastres/chains/service.go:Update", "domain/memory/piastres/bills/repository.go:Retrieve"]}
{"id": "C154", "title": "Links that go from node to node", "statement": "A mined link that is sent from node to node, each one decoding the text it got, saving the link and sending on what it retrieves, should arrive as it was sent. What holds for links without addresses, for any number of nodes, whatever calls, failed writes and power failures their files have seen: what any node sends on has the same hash and the same content (the scalars of signatures in reduced encoding, so that from the second text on all texts are equal), and when every node has the genesis, every node succeeds and the link arrives. In the code no node ever sends on a link of which a transaction has an address.", "quantifier": "all links of the assumed form, all numbers of nodes, all stores with any history", "why_tests_cant": "numbers of nodes and histories of their files are unbounded", "anchors": ["domain/memory/piastres/links/mined/adapter.go:Encode", "domain/memory/piastres/links/mined/adapter.go:Decode", "domain/memory/piastres/links/mined/service.go:Save", "domain/memory/piastres/links/mined/repository.go:Retrieve"]}
{"id": "C155", "title": "The applications are enough to start a chain", "statement": "A user who has nothing but the applications should be able to create an identity, initialise a genesis with a wallet, mine blocks and links and pay fees. In the code they get no further than identities: whatever calls are made, in whatever order and number, by any number of users, with any arguments, and with miners cut off at any point, a node that starts with nothing never writes a file of a genesis, bill, transaction, block, link or chain, neither Init nor Block nor Link ever returns nil, no identity ever has a wallet, and no announcement with a fee ever returns nil (provided that the collection of wallets, which is not implemented, neither invents wallets nor bills). The same holds as long as no chain can be retrieved, which C80 shows for all files of the node's own genesis. What holds: as long as that is so, every call that does not return nil leaves identities, sessions and files exactly as they were.", "quantifier": "all sequences of calls of the applications by any users with any arguments, all implementations of the identity services that meet their contract, all curves and hash functions", "why_tests_cant": "all sequences of calls of any length", "anchors": ["application/current.go:NewIdentity", "application/current.go:Authenticate", "application/identities/current.go:Update", "application/identities/current.go:Delete", "application/identities/buckets/application.go:Add", "application/identities/buckets/application.go:Delete", "application/identities/piastres/current.go:Bucket", "application/genesis/current.go:Init", "application/miners/current.go:Block", "application/miners/current.go:Link"]}
{"id": "C156", "title": "A hash tells of which kind an object is", "statement": "Objects of different kinds should never have the same hash, as everywhere a hash stands for the object. In the code hashes are made from the parts one after the other, without a mark of the kind: two built objects of any of the thirteen kinds have the same hash exactly when these texts are equal or one text is nothing but the hash of the other object, barring a collision of the two texts. So every hash whatsoever is that of a lock, of an address and of a transaction which the builders accept; for every block and amount a bill of that amount has the hash of the block mined with the amount as its mining text; a link from a block has the hash of a mined form of that block; and each content that pays to a lock with the hash of a genesis as key has the hash of a block of that genesis. What holds, barring collisions: bills are told from contents, expenses, blocks, links, chains and states, links from expenses, chains and states; and a bill, content, block, link, chain or state has the hash of a lock, address or transaction only if that one consists of this hash alone.", "quantifier": "all objects of thirteen kinds that builders make, all hash functions and curves", "why_tests_cant": "pairs of objects of all kinds are unbounded", "anchors": ["domain/memory/piastres/locks/builder.go:Now", "domain/memory/piastres/bills/builder.go:Now", "domain/memory/piastres/expenses/content_builder.go:Now", "domain/memory/piastres/blocks/builder.go:Now", "domain/memory/piastres/blocks/mined/builder.go:Now", "domain/memory/piastres/links/builder.go:Now", "domain/memory/piastres/transactions/builder.go:Now", "domain/memory/piastres/transactions/addresses/builder.go:Now", "libs/hash/adapter.go:FromMultiBytes"]}
{"id": "C157", "title": "Every node finds every other one", "statement": "In a network of nodes that run the peer daemon, every node should get to know every node that can be found from it, going from list to list. What holds, over repositories that keep their contract (the one on files does not, see C63) and as long as all these nodes are up, for any network and however the rounds of the nodes overlap: no daemon ever ends, every peer that can be found is listed from some time on, in a finite network the lists become exactly the lists of what can be found and stay so, no peer is ever listed that could not be found, and with each round the distance over which peers are known doubles. But when one node is down, the daemon of every node from which it can be found, over any number of others, ends sooner or later, and is not started again.", "quantifier": "all networks, lists and nodes that are down, all infinite courses in which each node goes on doing rounds, with rounds overlapping in any way", "why_tests_cant": "infinite executions of networks of any size", "anchors": ["infrastructure/daemons/peers/application.go:Start", "application/peers/application.go:Retrieve", "domain/memory/peers/builder.go:Now"]}
{"id": "C158", "title": "The newest link reaches every node", "statement": "In a network of nodes that run the chain daemon, all of them should come to the highest chain, and stay together. In the code, whoever asks whom, in whatever order and however the rounds overlap, a node that begins below the greatest height of the network never reaches it; nodes at the greatest height never change, so that two of them with different chains never agree, whichever has more transactions; and a daemon that has ended, as each one does after the first round in which it finds a better chain, is never started again. What holds: no node falls below the height it began with, and none exceeds the greatest height. (Over chain applications that keep their contract, with nodes that answer truthfully, heights below 2^63.)", "quantifier": "all networks, all finite and infinite courses with overlapping rounds, all chains and answers", "why_tests_cant": "executions of networks of any size and length", "anchors": ["infrastructure/daemons/chains/application.go:Start", "domain/memory/piastres/chains/chain.go:Height"]}
{"id": "C159", "title": "Nobody else can change the hash of a payment", "statement": "Once an expense is signed, nobody without the keys should be able to make another accepted expense with the same content and another hash, under which the payment could no longer be followed. In the code everybody can: scalars put behind those of a ring signature are not looked at but hashed, and a ring signature can be turned, so that it begins with the challenge of another key. Both open the lock, both survive JSON, and give as many accepted expenses as one likes that pay the same under different hashes, and different hashes of the transactions that contain them, unless two different texts with the same SHA-512 value are found. What holds: the spelling of the signatures in the JSON form (line breaks, letter case, digits behind, unreduced scalars) does not change the hash.", "quantifier": "all accepted expenses, their signatures, added scalars, turns and transactions, all curves and hash functions", "why_tests_cant": "all signatures, not only those made by RingSign, and arbitrarily many variants", "anchors": ["libs/cryptography/pk/signature/ringsignature.go:Verify", "libs/cryptography/pk/signature/ringsignature.go:String", "domain/memory/piastres/locks/lock.go:Unlock", "domain/memory/piastres/expenses/builder.go:Now"]}
{"id": "C160", "title": "What a hash tells about longer texts", "statement": "With the hash function that the code uses (SHA-512, written out), who knows the hash of a text and its length, but not the text, can compute the hash of longer texts: for every length there is an addition such that the hash of the text with this addition and any end behind it is a function of the hash, the length and the end alone. So a hash of a secret and public bytes, as FromMultiBytes makes it, does not show who made it.", "quantifier": "all texts, lengths and ends", "why_tests_cant": "all texts of any length; a test sees single hashes", "anchors": ["libs/hash/adapter.go:FromBytes", "libs/hash/adapter.go:FromMultiBytes"]}
{"id": "C161", "title": "The time of an object is part of it", "statement": "The creation time of a block, a payment or a link should be fixed by its hash, and along a chain times should not go back. In the code no hash contains a time and no builder compares two: with any function applied to all times in it, an accepted object of any kind is accepted and has the same hash and, if it is mined, the same mining text; for every accepted chain and any four times there is one with the same hash whose genesis, root, head and whole have these times and are otherwise the same. Everybody can do this to the JSON text of a mined link on its way: it is read as the same link with the other times. A node that has something under the hash keeps the times that came first, as saving the object again with others writes nothing and returns nil. What holds: inside of an expense the times agree, as the expense and the bills it makes have the time of its content, whatever the JSON form says about the time of the bill it pays.", "quantifier": "all accepted objects of all kinds, all functions on times, all stores, all curves and hash functions", "why_tests_cant": "all times and objects; two nodes only differ when different texts reach them", "anchors": ["domain/memory/piastres/blocks/builder.go:Now", "domain/memory/piastres/links/builder.go:Now", "domain/memory/piastres/expenses/builder.go:Now", "domain/memory/piastres/chains/builder.go:Now", "domain/memory/piastres/links/mined/builder.go:Now", "application/miners/current.go:Link"]}
{"id": "C162", "title": "An imported private key decrypts what its public key encrypts", "statement": "A private key that FromBytes of the encryption adapter accepts should decrypt every message that is encrypted with its public key. In the code the file is checked, but not whether the two factors are prime: there is an accepted file with coprime factors such that, whatever the hash function, the seed and the blinding, some message of one byte is encrypted without an error and not decrypted to itself. What holds: for accepted keys with coprime factors the numbers below the modulus all come back exactly if each factor is a product of different primes s for each of which the exponents cancel modulo s-1; then every message that leaves room for the padding is decrypted, with every seed and blinding; and two different primes suffice, whatever else the file says.", "quantifier": "all files, keys, messages, seeds, blinding numbers and hash functions", "why_tests_cant": "all keys of any size; a test imports keys that were made with prime factors", "anchors": ["libs/cryptography/pk/encryption/adapter.go:FromBytes", "libs/cryptography/pk/encryption/privatekey.go:Decrypt"]}
{"id": "C163", "title": "Created private keys for encryption work", "statement": "Create of the encryption factory, whatever primes the random source gives: the first two different primes p, q with 65537 not dividing (p-1)(q-1) become a key of exactly the number of bits that was asked for (and until there are such primes, Create does not return); fewer than 12 bits are refused with an error. With a created key every message of at most ceil(bits/8) - 66 bytes can be encrypted and is decrypted to itself, whatever the seed and the blinding, longer messages are refused with an error; so keys of 12 to 520 bits are created without an error although nothing can be encrypted for them. The private key and its public key come back from their bytes and texts (up to 2^20 bits). The primes come from the bytes of the random source: they have the number of bits asked for and the two highest bits set, no prime is passed over in a round and every prime with these bits can be drawn. The test for primes accepts every prime, whatever its bases (unless its Lucas test finds no parameter up to 10000 and panics), and below 3481 nothing else.", "quantifier": "all numbers of bits, all sequences of primes, messages, seeds, blinding numbers and hash functions", "why_tests_cant": "primes are random and keys are large: a test sees some keys and messages", "anchors": ["libs/cryptography/pk/encryption/factory.go:Create", "libs/cryptography/pk/encryption/privatekey.go:Decrypt", "libs/cryptography/pk/encryption/adapter.go:FromBytes"]}
{"id": "C164", "title": "Private keys with more than two primes", "statement": "FromBytes of the encryption adapter also accepts files of private keys with more than two prime factors. With any number of different odd primes and exponents that cancel, every message that leaves room for the padding is decrypted to itself, whatever the seed and the blinding, and the key comes back from its bytes. A key that is accepted has factors above 2 whose product is the modulus, a public exponent from 2 to 2^31-1, and exponents that cancel modulo each factor less one; that the factors have no common divisors is not checked: if two of them have one, every decryption of a number up to the modulus ends in a panic, and otherwise none does. For accepted keys whose factors have no common divisors all numbers below the modulus come back exactly if each factor is a product of different primes for which the exponents cancel, and then messages are decrypted, too. With different odd primes what Decrypt returns does not depend on its random numbers, is the power with the private exponent, and is a message exactly for the texts that encrypt it (as in C165). Files without further factors are read as before, and the keys then decrypt and are written as before (C104, C105, C162).", "quantifier": "all files, numbers of primes, keys, messages, seeds, blinding numbers and hash functions", "why_tests_cant": "created keys always have two primes, so no test meets such a key; any number of primes of any size", "anchors": ["libs/cryptography/pk/encryption/adapter.go:FromBytes", "libs/cryptography/pk/encryption/adapter.go:ToBytes", "libs/cryptography/pk/encryption/privatekey.go:Decrypt"]}
{"id": "C165", "title": "Encrypted messages have one content and several spellings", "statement": "With a proper key pair, what Decrypt returns does not depend on its random numbers. Exactly those bytes are decrypted to a message that have at most the length of the key and are, as a number, an encryption of this message with some seed (the modulus itself counts as zero). Two encryptions are equal only if message and seed are, so an encrypted message has one content, and two encryptions of the same message with different seeds are different. An encryption that begins with a zero byte can be shortened by everybody and is still decrypted to the same message, so encrypted texts do not identify what was sent.", "quantifier": "all proper keys, messages, seeds, blinding numbers, texts and hash functions", "why_tests_cant": "all seeds and texts, of which a test sees some; a zero at the beginning is rare", "anchors": ["libs/cryptography/pk/encryption/privatekey.go:Decrypt", "libs/cryptography/pk/encryption/public/key.go:Encrypt"]}
{"id": "C166", "title": "What changed encrypted texts and initial values do", "statement": "With AES-256, which the code uses and which encrypts different blocks differently under every key: two encryptions of the same text with the same password and different initial values differ in every block of 16 bytes. If one block of an encrypted text is changed, the decrypted text is the same before that place, has exactly the same bits changed there, has another next block of 16 bytes, and is the same after it; if the initial value is changed, the first 16 bytes of the text become others and the rest stays.", "quantifier": "all passwords, initial values, texts, places and changes", "why_tests_cant": "all keys and blocks; that AES is a permutation for each of 2^256 keys cannot be tried", "anchors": ["libs/cryptography/encryption/encryption.go:Encrypt", "libs/cryptography/encryption/encryption.go:Decrypt"]}
{"id": "C167", "title": "Hashes depend on the text alone, however it is written", "statement": "The hash objects that the code writes to (SHA-512 for hashes, SHA-256 for signatures, passwords and public key encryption) return, for every sequence of Write, Sum and Reset calls, the hash of what was written since the last Reset, whatever pieces it was written in and whatever was hashed before with the same object; Sum changes nothing, and none of the calls panics. Encrypt and Decrypt of the public key encryption, which use one object for all the hashes of the padding, so give the result they would have with a hash function.", "quantifier": "all sequences of calls, all texts and all ways to cut them; all keys, seeds, messages and states of the object", "why_tests_cant": "pieces of all lengths around the ends of blocks, and texts whose length is more than 2^61 bytes", "anchors": ["libs/hash/adapter.go:FromBytes", "libs/cryptography/pk/signature/helper.go:createHash", "libs/cryptography/encryption/builder.go:Now", "libs/cryptography/pk/encryption/privatekey.go:Decrypt", "libs/cryptography/pk/encryption/public/key.go:Encrypt"]}
