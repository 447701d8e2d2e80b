import Verif.Props.HashTree
import Verif.Props.Json
import Verif.Props.Rsa
import Verif.Props.Sig

/-!
# Exact forms of claims that hold with conditions: C12, C29, C70, C104, C105
-/

namespace Verif

theorem checkPub_not_crash {k : RsaPub} {e : Crash} : checkPub k ≠ .crash e := by
  unfold checkPub Outcome.guardNot
  split
  · simp
  · simp only [Outcome.bind_ok]; split <;> simp

section
variable [Sha512]

/-- `x` is the last element of `data` with its hash. -/
def LastWithHash (data : List Bytes) (x : Bytes) : Prop :=
  ∃ before after, data = before ++ x :: after ∧ ∀ y ∈ after, fromBytes y ≠ fromBytes x

private theorem orderMap_iff {data : List Bytes} {k : Hash} {x : Bytes} :
    orderMap data k = some x ↔ fromBytes x = k ∧ LastWithHash data x := by
  unfold orderMap LastWithHash
  rw [List.find?_eq_some_iff_append]
  simp only [decide_eq_true_eq, Bool.not_eq_true', decide_eq_false_iff_not]
  constructor
  · rintro ⟨rfl, as, bs, h1, h2⟩
    refine ⟨rfl, bs.reverse, as.reverse, ?_, by simpa using h2⟩
    have := congrArg List.reverse h1
    simpa using this
  · rintro ⟨rfl, as, bs, rfl, h2⟩
    exact ⟨rfl, bs.reverse, as.reverse, by simp, by simpa using h2⟩

private theorem orderMap_isNone {data : List Bytes} {k : Hash} :
    orderMap data k = none ↔ k ∉ data.map fromBytes := by
  unfold orderMap
  simp

private theorem filterMap_orderMap (data : List Bytes) : ∀ (ls : List Leaf) (out : List Bytes),
    ls.filterMap (fun l => orderMap data l.head) = out ↔
      out.map fromBytes = (ls.map Leaf.head).filter (· ∈ data.map fromBytes) ∧
        ∀ x ∈ out, LastWithHash data x
  | [], out => by
    cases out <;> simp
  | l :: ls, out => by
    cases h : orderMap data l.head with
    | none =>
      have hk := orderMap_isNone.mp h
      rw [List.filterMap_cons_none (f := fun l : Leaf => orderMap data l.head) h, filterMap_orderMap data ls out, List.map_cons,
        List.filter_cons_of_neg (by simpa using hk)]
    | some d =>
      obtain ⟨h1, h2⟩ := orderMap_iff.mp h
      have hk : l.head ∈ data.map fromBytes := by
        by_contra hk
        rw [orderMap_isNone.mpr hk] at h
        cases h
      rw [List.filterMap_cons_some (f := fun l : Leaf => orderMap data l.head) h, List.map_cons, List.filter_cons_of_pos (by simpa using hk)]
      constructor
      · rintro rfl
        obtain ⟨e1, e2⟩ := (filterMap_orderMap data ls _).mp rfl
        refine ⟨by rw [List.map_cons, e1, h1], ?_⟩
        intro x hx
        rcases List.mem_cons.mp hx with rfl | hx
        · exact h2
        · exact e2 x hx
      · rintro ⟨e1, e2⟩
        cases out with
        | nil => simp at e1
        | cons x out =>
          rw [List.map_cons, List.cons.injEq] at e1
          have hx : orderMap data l.head = some x := orderMap_iff.mpr ⟨e1.1, e2 x (by simp)⟩
          obtain rfl : d = x := Option.some.inj (h.symm.trans hx)
          rw [(filterMap_orderMap data ls out).mpr ⟨e1.2, fun y hy => e2 y (by simp [hy])⟩]

/-- C70, exactly what `Order` does, on every tree and every list of data: it succeeds if and only if as many
leaves have a hash that occurs in the data as there are data, and then it returns, leaf by leaf, the last
element of the data with that hash. So elements are dropped exactly as often as others are repeated. -/
theorem C70_order_exact (t : HashTree) (data out : List Bytes) :
    t.order data = .ok out ↔ out.length = data.length ∧
      out.map fromBytes = t.leafHashes.filter (· ∈ data.map fromBytes) ∧
      ∀ x ∈ out, LastWithHash data x := by
  rw [HashTree.leafHashes, ← filterMap_orderMap]
  unfold HashTree.order
  simp only
  split
  · rename_i h
    constructor
    · intro h; cases h
    · rintro ⟨h1, rfl⟩; exact absurd h1 h
  · rename_i h
    rw [Outcome.ok.injEq]
    constructor
    · rintro rfl; exact ⟨by simpa using h, rfl⟩
    · rintro ⟨-, h⟩; exact h

/-- C70, exactly when `Order` succeeds; otherwise it fails with an error. -/
theorem C70_order_accepts_iff (t : HashTree) (data : List Bytes) :
    ((∃ out, t.order data = .ok out) ↔
      (t.leafHashes.filter (· ∈ data.map fromBytes)).length = data.length) ∧
    ((∃ e, t.order data = .err e) ↔
      (t.leafHashes.filter (· ∈ data.map fromBytes)).length ≠ data.length) := by
  obtain ⟨e1, -⟩ := (filterMap_orderMap data t.blockLeaves _).mp rfl
  have hl := congrArg List.length e1
  rw [List.length_map, ← HashTree.leafHashes] at hl
  unfold HashTree.order
  simp only [hl]
  split
  · rename_i h; exact ⟨⟨fun ⟨_, e⟩ => (by cases e), fun e => absurd e h⟩, ⟨fun _ => h, fun _ => ⟨_, rfl⟩⟩⟩
  · rename_i h
    exact ⟨⟨fun _ => not_not.mp h, fun _ => ⟨_, rfl⟩⟩, ⟨fun ⟨_, e⟩ => (by cases e), fun e => absurd e h⟩⟩

end

/-! ## C104 -/

/-- C104, exactly which bytes, of less than 2 GiB, are read as a given public key: the key has to be one that
can be used, and the bytes are its encoding with any bytes behind the exponent. -/
theorem C104_accepted_encodings_exact {b : Bytes} (hb : b.length < 2 ^ 31) (k : RsaPub) :
    rsaPubFromBytes b = .ok k ↔ 0 < k.n ∧ 0 < k.e ∧ k.e < 2 ^ 31 ∧
      ∃ extra, b = tlv tagSequence (derField k.n ++ (derField k.e ++ extra)) := by
  constructor
  · intro h
    obtain ⟨extra, he, -⟩ := C104_accepted_encodings_partial h
    refine ⟨?_, ?_, ?_, extra, he⟩ <;>
    · unfold rsaPubFromBytes at h
      split at h
      · cases h
      split at h
      · cases h
      split at h
      · cases h
      simp only [rsaPubNow, Outcome.require_some, Outcome.ok.injEq] at h
      subst h
      simp only
      omega
  · rintro ⟨h1, h2, h3, extra, rfl⟩
    exact rsaPubFromBytes_fields h1 h2 h3 hb

/-! ## C105 -/

/-- C105, exactly which decryptions with an imported private key panic, for every random number that the
library accepts: those with factors that have a common divisor, a modulus of at least 66 bytes, and bytes
that are not longer and, as a number, not larger than the modulus. -/
theorem C105_decryption_panics_iff [Sha256] {b : Bytes} {k : RsaKey} (hb : rsaKeyFromBytes b = .ok k)
    {r : Nat} (hr : Nat.Coprime r k.pub.n) (c : Bytes) :
    (rsaDecrypt k r c).isCrash = true ↔ ¬ Nat.Coprime k.q k.p ∧ 66 ≤ k.pub.size ∧
      c.length ≤ k.pub.size ∧ beNat c ≤ k.pub.n := by
  by_cases hpq : Nat.Coprime k.q k.p
  · rw [C105_decryption_returns_partial hb hpq hr c]
    simp [hpq]
  by_cases hs : 66 ≤ k.pub.size
  swap
  · have : (rsaDecrypt k r c).isCrash = false := by
      unfold rsaDecrypt
      cases hc : checkPub k.pub with
      | ok u => simp [Outcome.guardNot, show k.pub.size < 66 by omega, Outcome.isCrash]
      | err e => rfl
      | crash e => simp [checkPub_not_crash] at hc
    simp [this, hs]
  by_cases hl : c.length ≤ k.pub.size
  swap
  · have : (rsaDecrypt k r c).isCrash = false := by
      unfold rsaDecrypt
      cases hc : checkPub k.pub with
      | ok u => simp [Outcome.guardNot, show k.pub.size < c.length by omega, Outcome.isCrash]
      | err e => rfl
      | crash e => simp [checkPub_not_crash] at hc
    simp [this, hl]
  by_cases hn : beNat c ≤ k.pub.n
  · rw [C105_decryption_panics_neg hb hpq hr hs hn hl]
    simp [hpq, hs, hl, hn, Outcome.isCrash]
  · have : (rsaDecrypt k r c).isCrash = false := by
      unfold rsaDecrypt rsaDecryptNat
      cases hc : checkPub k.pub with
      | ok u =>
        simp [Outcome.guardNot, show k.pub.n < beNat c by omega, Outcome.isCrash,
          show ¬ k.pub.size < c.length by omega, show ¬ k.pub.size < 66 by omega]
      | err e => rfl
      | crash e => simp [checkPub_not_crash] at hc
    simp [this, hn]

section
variable [C : Curve]

/-- C12: exactly when `Sign` succeeds: the nonce gets a challenge other than zero, or the message gets the
challenge zero, or the private key is a multiple of the group order. -/
theorem C12_sign_succeeds_iff (x : Scalar) (msg nonce : Bytes) :
    (∃ sig, sign x msg nonce = .ok sig) ↔
      C.hashF (nonce ++ ptStr (C.mul (genK x msg) C.base)) ≠ 0 ∨
        C.hashF (msg ++ ptStr (C.mul (genK x msg) C.base)) = 0 ∨ C.val x = 0 := by
  have hk : eff (genK x msg) = C.val (genK x msg) := eff_of_fits (C.canon_fits _)
  have hr : C.mul (genK x msg) C.base = C.mul (C.canon (C.val (genK x msg))) C.base := by
    rw [mul_base_eff, mul_base_eff, eff_canon, hk]
  unfold sign createSignature
  simp only
  rw [hr]
  generalize hs : C.canon (C.val (genK x msg) - C.val (C.canon (C.val (createHash (msg ++ ptStr
    (C.mul (C.canon (C.val (genK x msg))) C.base))) * C.val x))) = s
  have hv := C13_verify_exact (C.val (genK x msg)) s nonce
  have hsk : C.mul s C.base = C.mul (C.canon (C.val (genK x msg))) C.base ↔
      C.hashF (msg ++ ptStr (C.mul (C.canon (C.val (genK x msg))) C.base)) = 0 ∨ C.val x = 0 := by
    rw [mul_base_eff, ← hs, eff_canon, ← mul_eq_zero]
    simp only [C.val_canon, createHash]
    constructor
    · intro h
      have := pt_injective h
      exact sub_eq_self.mp this
    · intro h
      rw [h, sub_zero]
      rfl
  rw [hsk] at hv
  rw [← hv]
  split <;> simp_all

/-- C12: exactly when the public key recovered from a signature is that of the signer: the message has a
challenge other than zero, or the private key is a multiple of the group order. -/
theorem C12_recovered_iff (x : Scalar) (hx : x.Fits) (msg nonce : Bytes) (sig : Signature)
    (h : sign x msg nonce = .ok sig) :
    sig.publicKey msg = publicKey x ↔
      C.hashF (msg ++ ptStr (C.mul (genK x msg) C.base)) ≠ 0 ∨ C.val x = 0 := by
  have hk : eff (genK x msg) = C.val (genK x msg) := eff_of_fits (C.canon_fits _)
  unfold sign createSignature at h
  simp only at h
  split at h
  · simp only [Outcome.ok.injEq] at h
    subst h
    simp only [Signature.publicKey, publicKey]
    simp only [mul_base_eff, sub_pt, mul_pt_eff, createHash, C.val_canon, eff_canon, hk,
      eff_of_fits hx]
    generalize C.hashF (msg ++ ptStr (pt (C.val (genK x msg)))) = e
    rw [pt_injective.eq_iff]
    by_cases he : e = 0
    · subst he
      simp [eq_comm]
    · simp only [he, ne_eq, not_false_eq_true, true_or, iff_true]
      field_simp
      ring
  · cases h

variable [Sha512]

/-- C29: exactly when an expense survives its JSON form: its signatures, with the scalars in reduced
encoding, still open the locks of the bills; and what comes back. -/
theorem C29_expense_round_trip_exact (e : Expense) (h : e.Built) (x : Expense) :
    expenseFromJSON (some e.toJSON) = .ok x ↔
      x = e.reduced ∧
        List.Forall₂ (fun b sig => Opens b.lock sig) e.content.source
          (e.signatures.map RingSignature.reduced) := by
  obtain ⟨hc, c, sigs, h⟩ := h
  obtain ⟨c, sg, rfl, rfl, hf, rfl⟩ := expenseNow_eq_ok.mp h
  have hs : mapO toRingSignature (sg.map RingSignature.str) = .ok (sg.map RingSignature.reduced) :=
    mapO_map_ok fun s _ => toRingSignature_str s
  simp only [expenseFromJSON, Expense.toJSON, Outcome.deref_some, Outcome.bind_ok,
    C29_content_round_trip c hc, hs]
  rw [expenseNow_eq_ok]
  constructor
  · rintro ⟨c', sg', e1, e2, h1, rfl⟩
    cases e1
    cases e2
    refine ⟨?_, h1.imp fun b sig hb => (C20_unlock_exact _ _).mp hb⟩
    simp [Expense.reduced, List.map_map, Function.comp_def, reduced_str]
  · rintro ⟨rfl, h1⟩
    refine ⟨c, _, rfl, rfl, h1.imp fun b sig hb => (C20_unlock_exact _ _).mpr hb, ?_⟩
    simp [Expense.reduced, List.map_map, Function.comp_def, reduced_str]

omit [Sha512] C in
private theorem mapO_map_iff {α β γ : Type} {f : β → Outcome γ} {g : α → β} {k : α → γ} {P : α → Prop} :
    ∀ {l : List α}, (∀ x ∈ l, ∀ y, f (g x) = .ok y ↔ y = k x ∧ P x) → ∀ ys,
      (mapO f (l.map g) = .ok ys ↔ ys = l.map k ∧ ∀ x ∈ l, P x)
  | [], _, ys => by rw [mapO_eq_ok]; simp
  | a :: l, h, ys => by
    have ih := mapO_map_iff (l := l) fun x hx => h x (by simp [hx])
    simp only [mapO_eq_ok] at ih ⊢
    rw [List.map_cons, List.forall₂_cons_left_iff]
    constructor
    · rintro ⟨y, ys', h1, h2, rfl⟩
      obtain ⟨rfl, hp⟩ := (h a (by simp) y).mp h1
      obtain ⟨rfl, hps⟩ := (ih ys').mp h2
      refine ⟨rfl, fun x hx => ?_⟩
      rcases List.mem_cons.mp hx with rfl | hx
      · exact hp
      · exact hps x hx
    · rintro ⟨rfl, hp⟩
      exact ⟨k a, l.map k, (h a (by simp) _).mpr ⟨rfl, hp a (by simp)⟩,
        (ih _).mpr ⟨rfl, fun x hx => hp x (by simp [hx])⟩, rfl⟩

/-- The signatures of the expense, with the scalars in reduced encoding, still open its bills. -/
def Expense.OpensReduced (e : Expense) : Prop :=
  List.Forall₂ (fun b sig => Opens b.lock sig) e.content.source (e.signatures.map RingSignature.reduced)

/-- C29: exactly when a transaction survives its JSON form: when every fee does; and what comes back. -/
theorem C29_transaction_round_trip_exact (x : Transaction) (h : x.Built) (y : Transaction) :
    trxFromJSON (some x.toJSON) = .ok y ↔ y = x.reduced ∧ ∀ e ∈ x.fees, e.OpensReduced := by
  obtain ⟨ha, hf, a, b, f, t, h⟩ := h
  obtain ⟨hne, rfl⟩ := trxNow_eq_ok.mp h
  have hfees := mapO_map_iff (l := f) (g := fun e : Expense => some e.toJSON) (k := Expense.reduced)
    (P := Expense.OpensReduced) fun e he => C29_expense_round_trip_exact e (hf e he)
  have haddr : optO (fun a => addressFromJSON (some a)) (a.map Address.toJSON) = .ok a := by
    cases a with
    | none => rfl
    | some a => simp [optO, C29_address_round_trip a (ha a rfl)]
  have hh : (f.map Expense.reduced).map Expense.hash = f.map Expense.hash := by
    simp [List.map_map, Function.comp_def, Expense.reduced]
  simp only [trxFromJSON, Transaction.toJSON, Outcome.deref_some, Outcome.bind_ok,
    optFromString_optStr, haddr, Outcome.bind_eq_ok]
  constructor
  · rintro ⟨fs, h1, h2⟩
    obtain ⟨rfl, hp⟩ := (hfees fs).mp h1
    obtain ⟨-, rfl⟩ := trxNow_eq_ok.mp h2
    refine ⟨?_, hp⟩
    rw [hh]
    rfl
  · rintro ⟨rfl, hp⟩
    refine ⟨_, (hfees _).mpr ⟨rfl, hp⟩, trxNow_eq_ok.mpr ⟨by rw [hh]; exact hne, ?_⟩⟩
    rw [hh]
    rfl

/-- C29: exactly when a block survives its JSON form: when every fee in it does. -/
theorem C29_block_round_trip_exact (b : Block) (h : b.Built) (y : Block) :
    blockFromJSON (some b.toJSON) = .ok y ↔
      y = b.reduced ∧ ∀ x ∈ b.trx, ∀ e ∈ x.fees, e.OpensReduced := by
  obtain ⟨hg, hx, g, n, x, t, h⟩ := h
  obtain ⟨g, x, rfl, rfl, hne, rfl⟩ := blockNow_eq_ok.mp h
  have htrx := mapO_map_iff (l := x) (g := fun e : Transaction => some e.toJSON)
    (k := Transaction.reduced) (P := fun x => ∀ e ∈ x.fees, e.OpensReduced)
    fun e he => C29_transaction_round_trip_exact e (hx e he)
  have hh : (x.map Transaction.reduced).map Transaction.hash = x.map Transaction.hash := by
    simp [List.map_map, Function.comp_def, Transaction.reduced]
  simp only [blockFromJSON, Block.toJSON, Outcome.deref_some, Outcome.bind_ok,
    C29_genesis_round_trip g hg, Outcome.bind_eq_ok]
  constructor
  · rintro ⟨xs, h1, h2⟩
    obtain ⟨rfl, hp⟩ := (htrx xs).mp h1
    obtain ⟨_, _, e1, e2, -, rfl⟩ := blockNow_eq_ok.mp h2
    cases e1
    cases e2
    refine ⟨?_, hp⟩
    rw [hh]
    rfl
  · rintro ⟨rfl, hp⟩
    refine ⟨_, (htrx _).mpr ⟨rfl, hp⟩, blockNow_eq_ok.mpr ⟨_, _, rfl, rfl, by simpa using hne, ?_⟩⟩
    rw [hh]
    rfl

/-- C29: exactly when a link survives its JSON form: when every fee in it does. -/
theorem C29_link_round_trip_exact (l : Link) (h : l.Built) (y : Link) :
    linkFromJSON (some l.toJSON) = .ok y ↔
      y = l.reduced ∧ ∀ x ∈ l.next.trx, ∀ e ∈ x.fees, e.OpensReduced := by
  obtain ⟨hn, p, n, i, t, h⟩ := h
  obtain ⟨p, n, rfl, rfl, rfl⟩ := linkNow_eq_ok.mp h
  simp only [linkFromJSON, Link.toJSON, Outcome.deref_some, Outcome.bind_ok, fromString_str,
    Outcome.bind_eq_ok, C29_block_round_trip_exact n hn]
  constructor
  · rintro ⟨_, ⟨rfl, hp⟩, h2⟩
    obtain ⟨_, _, e1, e2, rfl⟩ := linkNow_eq_ok.mp h2
    cases e1
    cases e2
    exact ⟨rfl, hp⟩
  · rintro ⟨rfl, hp⟩
    exact ⟨_, ⟨rfl, hp⟩, linkNow_eq_ok.mpr ⟨_, _, rfl, rfl, rfl⟩⟩

/-- C29: exactly when a mined link, with any mining text, survives its JSON form: when every fee in it does;
what comes back has the mining text with every invalid byte replaced, and the hash of that. So the mined link
is the same, up to the encoding of scalars, if and only if moreover its mining text is valid UTF-8. -/
theorem C29_mined_link_round_trip_exact (k : Link) (hk : k.Built) (m : Bytes) (t : Time) (l : MinedLink)
    (hl : minedLinkNow (some k) m t = .ok l) :
    (∀ y, minedLinkFromJSON (some l.toJSON) = .ok y ↔
      y = ⟨fromBytes (k.hash.bytes ++ jsonText m), k.reduced, jsonText m, t⟩ ∧
        ∀ x ∈ k.next.trx, ∀ e ∈ x.fees, e.OpensReduced) ∧
    (minedLinkFromJSON (some l.toJSON) = .ok l.reduced ↔
      Utf8 m ∧ ∀ x ∈ k.next.trx, ∀ e ∈ x.fees, e.OpensReduced) := by
  obtain ⟨k, e, rfl⟩ := minedLinkNow_eq_ok.mp hl
  cases e
  have main : ∀ y : MinedLink,
      minedLinkFromJSON (some (MinedLink.toJSON ⟨fromBytes (k.hash.bytes ++ m), k, m, t⟩)) = .ok y ↔
      y = ⟨fromBytes (k.hash.bytes ++ jsonText m), k.reduced, jsonText m, t⟩ ∧
        ∀ x ∈ k.next.trx, ∀ e ∈ x.fees, e.OpensReduced := by
    intro y
    simp only [minedLinkFromJSON, MinedLink.toJSON, Outcome.deref_some, Outcome.bind_ok,
      Outcome.bind_eq_ok, C29_link_round_trip_exact k hk]
    constructor
    · rintro ⟨_, ⟨rfl, hp⟩, h2⟩
      obtain ⟨_, e1, rfl⟩ := minedLinkNow_eq_ok.mp h2
      cases e1
      exact ⟨rfl, hp⟩
    · rintro ⟨rfl, hp⟩
      exact ⟨_, ⟨rfl, hp⟩, minedLinkNow_eq_ok.mpr ⟨_, rfl, rfl⟩⟩
  refine ⟨main, (main _).trans (and_congr_left fun _ => ?_)⟩
  simp only [MinedLink.reduced, MinedLink.mk.injEq, true_and, and_true]
  rw [← jsonText_eq_iff]
  exact ⟨fun h => h.2.symm, fun h => by simp [h]⟩

end

section examples
attribute [local instance] toySha toyCurve

/-- A tree with a repeated block takes the foreign block and gives the repeated one twice; with fewer or
more data it refuses. -/
example : ∃ t, hashTreeFromBlocks [[1], [1]] = .ok t ∧ t.order [[1], [2]] = .ok [[1], [1]] ∧
    (∃ e, t.order [[1]] = .err e) ∧ ∃ e, t.order [[1], [2], [3]] = .err e := by
  refine ⟨_, rfl, by decide, ?_, ?_⟩
  · rw [(C70_order_accepts_iff _ _).2]; decide
  · rw [(C70_order_accepts_iff _ _).2]; decide

/-- The key with modulus 15 and exponent 3, with and without bytes behind. -/
example : rsaPubFromBytes [48, 6, 2, 1, 15, 2, 1, 3] = .ok ⟨15, 3⟩ ∧
    rsaPubFromBytes [48, 8, 2, 1, 15, 2, 1, 3, 9, 9] = .ok ⟨15, 3⟩ := by
  constructor <;> decide +kernel

/-- C29: a link with a transaction that pays a fee, with a ring signature: mined with a valid text it survives,
and with an invalid one another mined link comes back. -/
example : ∃ k : Link, k.Built ∧ (∃ x ∈ k.next.trx, ∃ e ∈ x.fees, e.signatures ≠ []) ∧
    (∀ l, minedLinkNow (some k) (ascii "42") 0 = .ok l →
      minedLinkFromJSON (some l.toJSON) = .ok l.reduced) ∧
    ∀ l, minedLinkNow (some k) [255] 0 = .ok l → ∃ y, minedLinkFromJSON (some l.toJSON) = .ok y ∧
      y ≠ l.reduced := by
  obtain ⟨l, sig, h1, h2, h3⟩ := C21_unlock_complete_partial [publicKey (toySc 1),
    publicKey (toySc 2)] (by decide) (toySc 2) (by decide) (by simp) 0
  obtain ⟨hc, -⟩ := C29_ring_sign_canonical _ _ _ _ h2
  obtain ⟨e, he, hs⟩ := exists_expense ⟨_, _, h1⟩ h3
  have hfit : e.Fits := by
    intro s hs' a ha
    rw [hs, List.mem_singleton] at hs'
    subst hs'
    obtain ⟨b, rfl⟩ := hc a ha
    exact Curve.canon_fits b
  have hop := ((C29_expense_round_trip_exact e he _).mp (C29_expense_round_trip_partial e he hfit)).2
  obtain ⟨x, hx⟩ : ∃ x, trxNow none none [e] 0 = .ok x := ⟨_, trxNow_eq_ok.mpr ⟨by simp, rfl⟩⟩
  have hxf : x.fees = [e] := by rw [(trxNow_eq_ok.mp hx).2]
  have hxa : x.address = none := by rw [(trxNow_eq_ok.mp hx).2]
  have hxb : x.Built := ⟨by simp [hxa], by simpa [hxf] using he, _, _, _, _, hx⟩
  obtain ⟨b, hb⟩ : ∃ b, blockNow (some toyGenesis) 4 (some [x]) 0 = .ok b :=
    ⟨_, blockNow_eq_ok.mpr ⟨_, _, rfl, rfl, by simp, rfl⟩⟩
  obtain ⟨hbg, hbx⟩ : b.genesis = toyGenesis ∧ b.trx = [x] := by
    obtain ⟨_, _, e1, e2, -, rfl⟩ := blockNow_eq_ok.mp hb
    cases e1
    cases e2
    exact ⟨rfl, rfl⟩
  have hbb : b.Built := ⟨hbg ▸ toyGenesis_built, by simpa [hbx] using hxb, _, _, _, _, hb⟩
  obtain ⟨k, hk⟩ : ∃ k, linkNow (some (toyHash 0)) (some b) 1 0 = .ok k :=
    ⟨_, linkNow_eq_ok.mpr ⟨_, _, rfl, rfl, rfl⟩⟩
  have hkn : k.next = b := by
    obtain ⟨_, _, e1, e2, rfl⟩ := linkNow_eq_ok.mp hk
    cases e2
    rfl
  have hkb : k.Built := ⟨hkn ▸ hbb, _, _, _, _, hk⟩
  have hop : ∀ x ∈ k.next.trx, ∀ e ∈ x.fees, e.OpensReduced := by
    simp only [hkn, hbx, List.mem_singleton]
    rintro _ rfl
    simp only [hxf, List.mem_singleton]
    rintro _ rfl
    exact hop
  refine ⟨_, hkb, by simp [hs, hkn, hbx, hxf], fun l hl => ?_, fun l hl => ?_⟩
  · refine (C29_mined_link_round_trip_exact _ hkb _ _ l hl).2.mpr ⟨⟨[0x34, 0x32], by simp [IsChar], by decide⟩, hop⟩
  · refine ⟨_, ((C29_mined_link_round_trip_exact _ hkb _ _ l hl).1 _).mpr ⟨rfl, hop⟩, ?_⟩
    intro hy
    obtain ⟨_, e, rfl⟩ := minedLinkNow_eq_ok.mp hl
    have := congrArg MinedLink.mining hy
    simp only [MinedLink.reduced] at this
    rw [jsonText] at this
    simp [runeSize, inRange, jsonText] at this

/-- C12: a message with a challenge other than zero, and the private key zero, with which everything is
signed and recovered. -/
example : (∃ sig, sign (toySc 2) (ascii "hi") (ascii "42") = .ok sig ∧
      sig.publicKey (ascii "hi") = publicKey (toySc 2)) ∧
    ∀ msg nonce, ∃ sig, sign (toySc 0) msg nonce = .ok sig ∧ sig.publicKey msg = publicKey (toySc 0) := by
  refine ⟨?_, fun msg nonce => ?_⟩
  · obtain ⟨sig, h⟩ := (C12_sign_succeeds_iff (toySc 2) (ascii "hi") (ascii "42")).mpr (.inl (by decide))
    exact ⟨sig, h, (C12_recovered_iff _ (by decide) _ _ _ h).mpr (.inl (by decide))⟩
  · obtain ⟨sig, h⟩ := (C12_sign_succeeds_iff (toySc 0) msg nonce).mpr (.inr (.inr (by decide)))
    exact ⟨sig, h, (C12_recovered_iff _ (by decide) _ _ _ h).mpr (.inr (by decide))⟩

end examples

end Verif
