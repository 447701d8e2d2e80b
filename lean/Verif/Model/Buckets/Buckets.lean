import Verif.Base.Json.Codec
import Verif.Model.HashTree
import Verif.Model.Entities
import Verif.Model.Store.Repos

/-!
# Model of `domain/memory/buckets` and `domain/transfers/buckets`
-/

namespace Verif

/-! ## Memory objects -/

/-- `domain/memory/buckets/files/chunks/chunk.go:10-14`. -/
structure Chunk where
  hash : Hash
  sizeInBytes : UInt64
  data : Hash
  createdOn : Time
  deriving DecidableEq

/-- `domain/memory/buckets/files/file.go:13-18`; the map is computed from the chunks, see
`BFile.chunkByHash`. -/
structure BFile where
  hash : Hash
  relativePath : Bytes
  chunks : List Chunk
  createdOn : Time
  deriving DecidableEq

/-- `domain/memory/buckets/bucket.go:13-17`; the map is computed from the files, see
`Bucket.fileByPath`. -/
structure Bucket where
  hash : Hash
  files : List BFile
  createdOn : Time
  deriving DecidableEq

section
variable [Sha512]

/-- `files/chunks/builder.go:59-83` (`Now`). -/
def chunkNow (sizeInBytes : UInt64) (data : Option Hash) (createdOn : Time) : Outcome Chunk :=
  if sizeInBytes ≤ 0 then .err "the sizeInBytes must be greater than zero (0)"
  else
    match data with
    | none => .err "the data hash is mandatory in order to build a Chunk instannce"
    | some data =>
      .ok ⟨fromMultiBytes [itoaU sizeInBytes, data.bytes], sizeInBytes, data, createdOn⟩

/-- `files/builder.go:59-96` (`Now`). -/
def bfileNow (relativePath : Bytes) (chunks : Option (List Chunk)) (createdOn : Time) :
    Outcome BFile :=
  if relativePath = [] then .err "the relativePath is mandatory in order to build a File instance"
  else
    match chunks with
    | none => .err "the chunks are mandatory in order to build a File instance"
    | some chunks =>
      if chunks.length ≤ 0 then
        .err "there must be at least 1 Chunk in order to build a File instance"
      else
        let data := [relativePath] ++ chunks.map fun c => c.hash.bytes
        .ok ⟨fromMultiBytes data, relativePath, chunks, createdOn⟩

/-- `builder.go:51-81` (`Now`). -/
def bucketNow (files : Option (List BFile)) (createdOn : Time) : Outcome Bucket :=
  match files with
  | none => .err "the files are mandatory in order to build an Bucket instance"
  | some files =>
    if files.length ≤ 0 then
      .err "there must be at least 1 File in order to build an Bucket instance"
    else .ok ⟨fromMultiBytes (files.map fun f => f.hash.bytes), files, createdOn⟩

end

/-- `files/file.go:52-60` (`ChunkByHash`) on the map built in `files/builder.go:90-93`: the last
chunk with that hash text. -/
def BFile.chunkByHash (f : BFile) (h : Hash) : Outcome Chunk :=
  match f.chunks.reverse.find? fun c => c.hash.str = h.str with
  | some c => .ok c
  | none => .err "the chunk hash is invalid"

/-- `bucket.go:52-59` (`FileByPath`) on the map built in `builder.go:75-78`: the last file with that
path. -/
def Bucket.fileByPath (b : Bucket) (path : Bytes) : Outcome BFile :=
  match b.files.reverse.find? fun f => f.relativePath = path with
  | some f => .ok f
  | none => .err "the file path is invalid"

/-! ## Transfer objects

They have no exported fields and no JSON methods, so `json.Marshal` writes `{}` for every one of
them and `json.Unmarshal` leaves every field at its zero value; a zero `immutable` or hash tree is a
nil interface. -/

/-- `domain/transfers/buckets/files/chunks/chunk.go:10-14`. -/
structure TrChunk where
  immutable : Option Immutable
  sizeInBytes : UInt64
  data : Hash

/-- `domain/transfers/buckets/files/file.go:11-16`. -/
structure TrFile where
  immutable : Option Immutable
  relativePath : Bytes
  chunks : Option HashTree
  amount : UInt64

/-- `domain/transfers/buckets/bucket.go:11-15`. -/
structure TrBucket where
  immutable : Option Immutable
  files : Option HashTree
  amount : UInt64

/-- The zero value of `hash.Hash`. -/
def zeroHash : Hash := ⟨List.replicate 64 0, rfl⟩

/-- The three structures have no exported fields. -/
def opaqueC : Codec Unit := structC () []

/-- `{}`: `json.Marshal` of any of the three, `files/chunks/adapter.go:25-27`,
`files/adapter.go:25-27`, `adapter.go:25-27` (`ToJSON`). -/
def opaqueJSON : Bytes := [123, 125]

theorem opaqueC_text : opaqueC.text () = some opaqueJSON := rfl

/-- Which texts `json.Unmarshal` accepts for a structure without exported fields: objects and
`null`. -/
def jsonAccepts (js : Bytes) : Bool := (opaqueC.read js).isSome

theorem jsonAccepts_empty : jsonAccepts opaqueJSON = true := by decide +kernel

/-- `files/chunks/adapter.go:14-22` (`ToChunk`). -/
def trChunkFromText (js : Bytes) : Outcome TrChunk :=
  if jsonAccepts js then .ok ⟨none, 0, zeroHash⟩ else .err "json"

/-- `files/adapter.go:14-22` (`ToFile`). -/
def trFileFromText (js : Bytes) : Outcome TrFile :=
  if jsonAccepts js then .ok ⟨none, [], none, 0⟩ else .err "json"

/-- `adapter.go:14-22` (`ToBucket`). -/
def trBucketFromText (js : Bytes) : Outcome TrBucket :=
  if jsonAccepts js then .ok ⟨none, none, 0⟩ else .err "json"

/-- `files/chunks/builder.go:63-82` (`Now`); hash, data hash and creation time are always given. -/
def trChunkNow (hash : Hash) (sizeInBytes : UInt64) (data : Hash) (createdOn : Time) :
    Outcome TrChunk :=
  if sizeInBytes ≤ 0 then .err "the sizeInBytes must be greater than zero (0)"
  else .ok ⟨some ⟨hash, createdOn⟩, sizeInBytes, data⟩

/-- `files/builder.go:72-101` (`Now`). `createBuilder` (lines 22-34) ignores its immutable builder,
so the field is nil and its use in line 95 panics. -/
def trFileNow (_hash : Hash) (relativePath : Bytes) (chunks : HashTree) (amount : UInt64)
    (_createdOn : Time) : Outcome TrFile :=
  if relativePath = [] then .err "the relative path is mandatory in order to build a File instance"
  else if amount ≤ 0 then .err "the amount is mandatory in order to build a File instance"
  else if (chunks.length : Int) < toInt amount then
    .err "the chunk's length cannot be smaller than the amount"
  else .crash .nilDeref

/-- `builder.go:65-90` (`Now`). -/
def trBucketNow (hash : Hash) (files : HashTree) (amount : UInt64) (createdOn : Time) :
    Outcome TrBucket :=
  if amount ≤ 0 then .err "the amount must be greater than zero (0)"
  else if (files.length : Int) < toInt amount then
    .err "the chunk's length cannot be smaller than the amount"
  else .ok ⟨some ⟨hash, createdOn⟩, some files, amount⟩

/-! ## Adapters, repositories and services -/

/-- The file stores of the three kinds of objects: contents by path; they may be the same store. A
save through the file service replaces exactly one content (`C55_last_save_wins`); I/O errors are not
modelled here. -/
abbrev Shelf := Bytes → Option Bytes

/-- `libs/file` `Retrieve` on such a store. -/
def Shelf.get (s : Shelf) (name : Bytes) : Outcome Bytes :=
  match s name with
  | some c => .ok c
  | none => .err "no such file or directory"

/-- `libs/file` `Save` on such a store. -/
def Shelf.set (s : Shelf) (name content : Bytes) : Shelf :=
  fun n => if n = name then some content else s n

/-- `libs/file` `Delete` on such a store. -/
def Shelf.del (s : Shelf) (name : Bytes) : Outcome Shelf :=
  match s name with
  | some _ => .ok fun n => if n = name then none else s n
  | none => .err "the given relative path does not exists"

section
variable [Sha512]

/-- `domain/memory/buckets/files/chunks/adapter.go:22-28` (`ToTransfer`). -/
def Chunk.toTransfer (c : Chunk) : Outcome TrChunk :=
  trChunkNow c.hash c.sizeInBytes c.data c.createdOn

/-- `domain/memory/buckets/files/adapter.go:26-50` (`ToTransfer`). -/
def BFile.toTransfer (f : BFile) : Outcome TrFile := do
  let ht ← hashTreeBuilderNow (some (f.chunks.map fun c => c.hash.bytes)) none
  trFileNow f.hash f.relativePath ht (UInt64.ofNat f.chunks.length) f.createdOn

/-- `domain/memory/buckets/adapter.go:26-43` (`ToTransfer`). -/
def Bucket.toTransfer (b : Bucket) : Outcome TrBucket := do
  let ht ← hashTreeBuilderNow (some (b.files.map fun f => f.hash.bytes)) none
  trBucketNow b.hash ht (UInt64.ofNat b.files.length) b.createdOn

/-- `domain/memory/buckets/files/chunks/repository.go:26-36` (`Retrieve`). -/
def retrChunk (s : Shelf) (h : Hash) : Outcome Chunk := do
  let js ← s.get h.str
  let tr ← trChunkFromText js
  let imm ← Outcome.deref tr.immutable
  chunkNow tr.sizeInBytes (some tr.data) imm.createdOn

/-- `domain/memory/buckets/files/repository.go:30-51` (`Retrieve`) with
`domain/memory/buckets/files/chunks/repository.go:39-52` (`RetrieveAll`). -/
def retrFile (fs cs : Shelf) (h : Hash) : Outcome BFile := do
  let js ← fs.get h.str
  let tr ← trFileFromText js
  let ht ← Outcome.deref tr.chunks
  let hashes ← takeLeaves ht.blockLeaves tr.amount
  let chunks ← mapO (retrChunk cs) hashes
  let imm ← Outcome.deref tr.immutable
  bfileNow tr.relativePath (some chunks) imm.createdOn

/-- `domain/memory/buckets/repository.go:30-50` (`Retrieve`) with
`domain/memory/buckets/files/repository.go:54-67` (`RetrieveAll`). -/
def retrBucket (bs fs cs : Shelf) (h : Hash) : Outcome Bucket := do
  let js ← bs.get h.str
  let tr ← trBucketFromText js
  let ht ← Outcome.deref tr.files
  let hashes ← takeLeaves ht.blockLeaves tr.amount
  let files ← mapO (retrFile fs cs) hashes
  let imm ← Outcome.deref tr.immutable
  bucketNow (some files) imm.createdOn

/-- `domain/memory/buckets/repository.go:53-65` (`RetrieveAll`). -/
def retrBuckets (bs fs cs : Shelf) (hashes : List Hash) : Outcome (List Bucket) :=
  mapO (retrBucket bs fs cs) hashes

/-- `domain/memory/buckets/files/chunks/service.go:28-41` (`Save`) with
`domain/transfers/buckets/files/chunks/service.go:22-29`. -/
def saveChunk (s : Shelf) (c : Chunk) : Outcome Shelf :=
  match retrChunk s c.hash with
  | .ok _ => .ok s
  | .crash x => .crash x
  | .err _ => do
    let tr ← c.toTransfer
    let imm ← Outcome.deref tr.immutable
    .ok (s.set imm.hash.str opaqueJSON)

/-- `service.go:44-53` (`SaveAll`) of the chunks. -/
def saveChunks (s : Shelf) : List Chunk → Outcome Shelf
  | [] => .ok s
  | c :: cs => do
    let s ← saveChunk s c
    saveChunks s cs

/-- `domain/memory/buckets/files/chunks/service.go:56-63` (`Delete`). -/
def deleteChunk (s : Shelf) (c : Chunk) : Outcome Shelf := do
  let tr ← c.toTransfer
  let imm ← Outcome.deref tr.immutable
  s.del imm.hash.str

/-- `domain/memory/buckets/files/chunks/service.go:66-75` (`DeleteAll`). -/
def deleteChunks (s : Shelf) : List Chunk → Outcome Shelf
  | [] => .ok s
  | c :: cs => do
    let s ← deleteChunk s c
    deleteChunks s cs

/-- `domain/memory/buckets/files/service.go:32-51` (`Save`): the stores of files and chunks. -/
def saveFile (fs cs : Shelf) (f : BFile) : Outcome (Shelf × Shelf) :=
  match retrFile fs cs f.hash with
  | .ok _ => .ok (fs, cs)
  | .crash x => .crash x
  | .err _ => do
    let cs ← saveChunks cs f.chunks
    let tr ← f.toTransfer
    let imm ← Outcome.deref tr.immutable
    .ok (fs.set imm.hash.str opaqueJSON, cs)

/-- `domain/memory/buckets/files/service.go:54-63` (`SaveAll`). -/
def saveFiles (fs cs : Shelf) : List BFile → Outcome (Shelf × Shelf)
  | [] => .ok (fs, cs)
  | f :: rest => do
    let s ← saveFile fs cs f
    saveFiles s.1 s.2 rest

/-- `domain/memory/buckets/files/service.go:66-73` (`Delete`). -/
def deleteFile (fs : Shelf) (f : BFile) : Outcome Shelf := do
  let tr ← f.toTransfer
  let imm ← Outcome.deref tr.immutable
  fs.del imm.hash.str

/-- `domain/memory/buckets/files/service.go:76-85` (`DeleteAll`). -/
def deleteFiles (fs : Shelf) : List BFile → Outcome Shelf
  | [] => .ok fs
  | f :: rest => do
    let fs ← deleteFile fs f
    deleteFiles fs rest

/-- `domain/memory/buckets/service.go:32-51` (`Save`). -/
def saveBucket (bs fs cs : Shelf) (b : Bucket) : Outcome (Shelf × Shelf × Shelf) :=
  match retrBucket bs fs cs b.hash with
  | .ok _ => .ok (bs, fs, cs)
  | .crash x => .crash x
  | .err _ => do
    let s ← saveFiles fs cs b.files
    let tr ← b.toTransfer
    let imm ← Outcome.deref tr.immutable
    .ok (bs.set imm.hash.str opaqueJSON, s.1, s.2)

/-- `domain/memory/buckets/service.go:54-67` (`Delete`). -/
def deleteBucket (bs fs : Shelf) (b : Bucket) : Outcome (Shelf × Shelf) := do
  let fs ← deleteFiles fs b.files
  let tr ← b.toTransfer
  let imm ← Outcome.deref tr.immutable
  let bs ← bs.del imm.hash.str
  .ok (bs, fs)

/-- `domain/transfers/buckets/files/chunks/data/service.go:23-30` (`Save`). -/
def saveData (s : Shelf) (data : Bytes) : Shelf := s.set (fromBytes data).str data

omit [Sha512] in
/-- `domain/transfers/buckets/files/chunks/data/service.go:33-35` (`Delete`). -/
def deleteData (s : Shelf) (h : Hash) : Outcome Shelf := s.del h.str

omit [Sha512] in
/-- `domain/transfers/buckets/files/chunks/data/repository.go:21-23` (`Retrieve`). -/
def retrData (s : Shelf) (h : Hash) : Outcome Bytes := s.get h.str

end

/-! ## From a directory to a bucket -/

/-- A directory tree as `ioutil.ReadDir` and `ioutil.ReadFile` show it: directories list their
entries in the order of `ReadDir`. Reading is not modelled as failing. -/
inductive Tree where
  | file (content : Bytes)
  | dir (entries : List (Bytes × Tree))

section
variable [Sha512]

/-- `application/identities/buckets/application.go:187`, for a positive chunk size:
`int(math.Floor(float64(len(data)) / float64(app.chunkSizeInBytes)))`. The division of floats is
rounded, but not across an integer, so this is the quotient of integers (`chunkLoopsFloat_eq` in
`Verif.Model.Floats`, below `2^53` bytes). -/
def chunkLoops (len size : Nat) : Nat := len / size

/-- `application.go:188-221`: the bytes of every chunk; the last one takes all remaining bytes. -/
def slices (data : Bytes) (size : Nat) : List Bytes :=
  let loops := chunkLoops data.length size
  (List.range loops).map fun i =>
    if i + 1 = loops then data.drop (i * size) else (data.take ((i + 1) * size)).drop (i * size)

/-- `application.go:188-221`: the chunk of some bytes; `now` as in `Verif.Model.Entities`. -/
def sliceChunk (now : Time) (slice : Bytes) : Outcome Chunk :=
  chunkNow (UInt64.ofNat slice.length) (some (fromBytes slice)) now

/-- `application.go:178-227` (`dirFileToFile`) after reading. All readings of the clock are taken
to be `now`; creation times are in no hash. -/
def dirFileToFile (size : Nat) (now : Time) (relativePath content : Bytes) : Outcome BFile := do
  let chunks ← mapO (sliceChunk now) (slices content size)
  bfileNow relativePath (some chunks) now

/-- `application.go:146-176` (`dirToFiles`) on the entries of a directory. `prefix` is the relative
path; `filepath.Join(".", name)` is `name`, so the starting path `.` is `[]` here. -/
def dirToFiles (size : Nat) (now : Time) : Bytes → List (Bytes × Tree) → Outcome (List BFile)
  | _, [] => .ok []
  | pre, (name, .dir entries) :: rest => do
    let subFiles ← dirToFiles size now (Hash.joinPath pre name) entries
    let out ← dirToFiles size now pre rest
    .ok (subFiles ++ out)
  | pre, (name, .file content) :: rest => do
    let file ← dirFileToFile size now (Hash.joinPath pre name) content
    let out ← dirToFiles size now pre rest
    .ok (file :: out)

/-- `application.go:75-85`: the bucket of a directory. -/
def dirToBucket (size : Nat) (now : Time) (entries : List (Bytes × Tree)) : Outcome Bucket := do
  let files ← dirToFiles size now [] entries
  bucketNow (some files) now

end

end Verif
