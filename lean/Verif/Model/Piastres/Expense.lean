import Verif.Model.Piastres.Bill

/-!
# Model of `domain/memory/piastres/expenses`
-/

namespace Verif

/-- `expenses/content.go:12-17`. -/
structure Content where
  hash : Hash
  source : List Bill
  dest : Bill
  remaining : Option Bill
  createdOn : Time
  deriving DecidableEq

/-- `expenses/json_content.go:10-15`. -/
structure JSONContent where
  source : List (Option JSONBill)
  dest : Option JSONBill
  remaining : Option JSONBill
  createdOn : Time
  deriving DecidableEq

/-- `expenses/json_expense.go:4-7`. -/
structure JSONExpense where
  content : Option JSONContent
  signatures : List Bytes
  deriving DecidableEq

/-- `expenses/expense.go:12-16`. -/
structure Expense [C : Curve] where
  hash : Hash
  content : Content
  signatures : List RingSignature
  createdOn : Time

/-- `expenses/content_builder.go:90-93`: the sum of the spent amounts, in `uint64` arithmetic. -/
def sourceTotal (bills : List Bill) : UInt64 := bills.foldl (fun t b => t + b.amount) 0

section
variable [Sha512]

/-- `expenses/content_builder.go:114-125`: the hashed data. -/
def contentData (lock : Lock) (amount : UInt64) (source : List Bill) (remaining : Option Lock) :
    List Bytes :=
  [lock.hash.bytes, itoaU amount] ++ source.map (fun b => b.hash.bytes) ++
    (match remaining with
      | some r => [r.hash.bytes]
      | none => [])

/-- `expenses/content_builder.go:81-152` (`Now`). -/
def contentNow (amount : UInt64) (source : Option (List Bill)) (lock : Option Lock)
    (remaining : Option Lock) (createdOn : Time) : Outcome Content :=
  match source with
  | none => .err "the from bill is mandatory in order to build a Content instance"
  | some source =>
    match lock with
    | none => .err "the lock is mandatory in order to build a Content instance"
    | some lock =>
      let total := sourceTotal source
      if amount > total then .err "the amount cannot be larger than the from amount"
      else
        let remainingAmount := total - amount
        if remaining.isSome ∧ remainingAmount ≤ 0 then
          .err "the remaining lock was expected to be nil since the bill was totally spent"
        else if remaining.isNone ∧ remainingAmount > 0 then
          .err "the remaining lock was expected since there is a remaining amount"
        else
          let hsh := fromMultiBytes (contentData lock amount source remaining)
          match billNow (some lock) amount createdOn with
          | .err m => .err m
          | .crash c => .crash c
          | .ok dest =>
            match remaining with
            | none => .ok ⟨hsh, source, dest, none, createdOn⟩
            | some r =>
              match billNow (some r) remainingAmount createdOn with
              | .err m => .err m
              | .crash c => .crash c
              | .ok rem => .ok ⟨hsh, source, dest, some rem, createdOn⟩

/-- `expenses/json_content.go:17-35` (`createJSONContentFromContent`). -/
def Content.toJSON (c : Content) : JSONContent :=
  ⟨c.source.map (fun b => some b.toJSON), some c.dest.toJSON, c.remaining.map Bill.toJSON, c.createdOn⟩

/-- `expenses/content.go:19-53` (`createContentFromJSON`). -/
def contentFromJSON (js : Option JSONContent) : Outcome Content := do
  let ins ← Outcome.deref js
  let source ← mapO billFromJSON ins.source
  let dest ← billFromJSON ins.dest
  let remaining ← optO (fun r => billFromJSON (some r)) ins.remaining
  contentNow dest.amount (some source) (some dest.lock) (remaining.map Bill.lock) ins.createdOn

variable [C : Curve]

/-- `expenses/builder.go:66-71`: the i-th signature must unlock the i-th bill. -/
def unlockAll : List Bill → List RingSignature → Outcome Unit
  | [], _ => .ok ()
  | _ :: _, [] => .crash .indexOutOfRange
  | b :: bs, s :: ss =>
    match b.lock.unlock s with
    | .ok () => unlockAll bs ss
    | .err m => .err m
    | .crash c => .crash c

/-- `expenses/builder.go:51-93` (`Now`). -/
def expenseNow (content : Option Content) (signatures : Option (List RingSignature)) :
    Outcome Expense :=
  match content with
  | none => .err "the content is mandatory in order to build an Expense instance"
  | some content =>
    match signatures with
    | none => .err "the ring signatures are mandatory in order to build an Expense instance"
    | some sigs =>
      if sigs.length ≠ content.source.length then
        .err "there must be the same amount of signatures as there is bills"
      else
        match unlockAll content.source sigs with
        | .err m => .err m
        | .crash c => .crash c
        | .ok () =>
          let hsh := fromMultiBytes (content.hash.bytes :: sigs.map RingSignature.str)
          .ok ⟨hsh, content, sigs, content.createdOn⟩

/-- `expenses/json_expense.go:9-18` (`createJSONExpenseFromExpense`). -/
def Expense.toJSON (e : Expense) : JSONExpense :=
  ⟨some e.content.toJSON, e.signatures.map RingSignature.str⟩

/-- `expenses/expense.go:18-36` (`createExpenseFromJSON`), `expenses/adapter.go:57-59`
(`ToExpense`). -/
def expenseFromJSON (js : Option JSONExpense) : Outcome Expense := do
  let ins ← Outcome.deref js
  let content ← contentFromJSON ins.content
  let sigs ← mapO toRingSignature ins.signatures
  expenseNow (some content) (some sigs)

end

end Verif
