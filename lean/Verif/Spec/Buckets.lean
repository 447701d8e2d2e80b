import Verif.Model.Buckets.Buckets
import Verif.Spec.Crypto
import Verif.Spec.Files

/-!
# Vocabulary for buckets
-/

namespace Verif

/-- There is a regular file with this content in a directory, at this sequence of names. -/
inductive InTree : List (Bytes × Tree) → List Bytes → Bytes → Prop
  | here {es n c} : (n, Tree.file c) ∈ es → InTree es [n] c
  | inside {es n sub ns c} : (n, Tree.dir sub) ∈ es → InTree sub ns c → InTree es (n :: ns) c

/-- What a directory tree looks like: proper names, different within a directory. -/
inductive Tidy : List (Bytes × Tree) → Prop
  | nil : Tidy []
  | file {n c es} : ProperName n → n ∉ es.map Prod.fst → Tidy es → Tidy ((n, .file c) :: es)
  | dir {n sub es} : ProperName n → n ∉ es.map Prod.fst → Tidy sub → Tidy es →
      Tidy ((n, .dir sub) :: es)

section
variable [Sha512]

/-- The chunk records the length and the hash of these bytes. -/
def Chunk.Of (c : Chunk) (part : Bytes) : Prop :=
  c.sizeInBytes.toNat = part.length ∧ c.data = fromBytes part

/-- The file records this path, and chunks for consecutive parts of this content: all but the last
have exactly the chunk size, the last one is less than two chunk sizes long. -/
def BFile.Of (f : BFile) (size : Nat) (path content : Bytes) : Prop :=
  f.relativePath = path ∧ ∃ parts last, (parts ++ [last]).flatten = content ∧
    List.Forall₂ Chunk.Of f.chunks (parts ++ [last]) ∧
    (∀ p ∈ parts, p.length = size) ∧ size ≤ last.length ∧ last.length < 2 * size

/-- Objects that come out of the builders. -/
def Chunk.Built (c : Chunk) : Prop := ∃ n d t, chunkNow n d t = .ok c

/-- See `Chunk.Built`. -/
def BFile.Built (f : BFile) : Prop := (∃ p cs t, bfileNow p cs t = .ok f) ∧ ∀ c ∈ f.chunks, c.Built

/-- See `Chunk.Built`. -/
def Bucket.Built (b : Bucket) : Prop := (∃ fs t, bucketNow fs t = .ok b) ∧ ∀ f ∈ b.files, f.Built

/-- A call of the service for the data of chunks
(`domain/transfers/buckets/files/chunks/data/service.go:23-35`). -/
inductive DataOp where
  | save (data : Bytes)
  | delete (hash : Hash)

/-- The hash that the call is about. -/
def DataOp.about : DataOp → Hash
  | .save d => fromBytes d
  | .delete h => h

/-- The store behind the call; a failed deletion leaves it as it was. -/
def DataOp.run (s : Shelf) : DataOp → Shelf
  | .save d => saveData s d
  | .delete h => match deleteData s h with
    | .ok s' => s'
    | _ => s

/-- The store after some calls, beginning with nothing. -/
def DataOp.runs (ops : List DataOp) : Shelf := ops.foldl DataOp.run fun _ => none

end

end Verif
