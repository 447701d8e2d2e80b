import Verif.Model.Identities.Records
import Verif.Model.Json.Objects

/-!
# The files of addresses

`domain/memory/piastres/transactions/addresses`: an address is kept as its JSON text in the file that is named
by its hash. Unlike the other services of the memory packages, this one does not look for an object with the
same hash before it writes.
-/

namespace Verif

/-- `transactions/addresses/service.go:24-32` (`Save`), `repository.go:25-38` (`Retrieve`) with
`adapter.go:12-19`: the hash, `json.Marshal` of `ToJSON`, and `json.Unmarshal` followed by `ToAddress`. There is
no deletion. -/
def addressRecords [Sha512] : Records Address :=
  ⟨Address.hash, fun a => jAddressC.text a.toJSON, addressFromText⟩

end Verif
