import Verif.Model.Files
import Verif.Model.Json.Identities

/-!
# Identities in encrypted files

The identity service and repository of `domain/transfers/identities` on the encrypted store of
`libs/file/sdk.go:17-29`, put together through `file.Service` and `file.Repository` (no other package of the
repository does it): the bytes of a file are the encryption of the JSON text of the identity.
-/

namespace Verif

section
variable [Sha512] [Cipher]

/-- `domain/transfers/identities/service.go:24-36` (`Save`) with `adapter.go:24-27` (`ToJSON`) on
`libs/file/encrypted_file_disk_service.go:22-29`. `iv` as in `encrypt`. -/
def sealTrIdentity (w : Place) (password : Bytes) (d : Disk) (i : TrIdentity) (iv : Bytes) :
    Outcome Unit × Disk :=
  match jTrIdentityC.text i.toJSON with
  | none => (.err "the identity cannot be marshalled", d)
  | some js => encSave w password d (identityFile i.hash i.seed) js iv

/-- `domain/transfers/identities/repository.go:22-35` (`Retrieve`) with `adapter.go:14-22` (`ToIdentity`) on
`libs/file/encrypted_file_disk_repository.go:22-29`. -/
def unsealTrIdentity (w : Place) (password : Bytes) (d : Disk) (hash : Hash) (seed : Bytes)
    (now₁ now₂ : Time) : Outcome TrIdentity :=
  (encRetrieve w password d (identityFile hash seed)).bind fun js =>
    match jTrIdentityC.read js with
    | none => .err "the text is not the JSON of an identity"
    | some ins => trIdentityFromJSON ins now₁ now₂

end

end Verif
