import Verif.Model.Http
import Verif.Model.Initializer

/-!
# aktualizr-get (src/aktualizr_get/get.cc, main.cc)

A GET of a URL with the credentials of the device. Simplified: opening the storage works or throws, as an input says; the reading of
the command line and of the configuration, the proxy, OCSP stapling and the limit of the bandwidth are left out.
-/

namespace Aktualizr.Get

open M (gets modify throw throwWhen catchStd)

/-- A request: the credentials in use, the URL, the additional headers. -/
structure Asked where
  creds : Prov.Creds
  url : String
  headers : List String
  deriving DecidableEq

/-- What is outside of the storage: the requests made, what was written to the standard output. -/
structure Web where
  asked : List Asked := []
  out : List UInt8 := []
  deriving DecidableEq

abbrev G := Prov.P Web

/-- `HttpInterface::kNoLimit` (httpinterface.h:77). -/
def kNoLimit : Int := 0

/-- `client->get(url, HttpInterface::kNoLimit)` (get.cc:16); the attempts the server makes of a request are an input. Simplified: the
attempts of one request count as one. -/
def request (net : Asked → List Http.Transfer) (url : String) (headers : List String) : G Http.Response := fun s =>
  let q : Asked := ⟨s.http, url, headers⟩
  let s := { s with srv := { s.srv with asked := s.srv.asked ++ [q] } }
  match Http.get kNoLimit (net q) with
  | some r => (.ok r, s)
  | none => (.error .crash, s)

/-- `aktualizrGet` (get.cc:6-22). -/
def aktualizrGet (env : Prov.Env) (opens : Bool) (f : Prov.Files) (net : Asked → List Http.Transfer) (url : String)
    (headers : List String) : G (List UInt8) := do
  throwWhen (!opens) (.std "storage")
  Prov.importData env f
  let _ ← Prov.loadSetTlsCreds
  let r ← request net url headers
  throwWhen (r.status != 200) (.std "Unable to get")
  pure r.body

/-- `std::cout << body`. -/
def print (b : List UInt8) : G Unit := modify (fun s => { s with srv := { s.srv with out := s.srv.out ++ b } })

/-- `main` (main.cc:62-84): whether it exits with `EXIT_SUCCESS`. -/
def main (env : Prov.Env) (opens : Bool) (f : Prov.Files) (net : Asked → List Http.Transfer) (url : String)
    (headers : List String) : G Bool :=
  catchStd (do
    let b ← aktualizrGet env opens f net url headers
    print b
    pure true) (fun _ => pure false)

/-- A run of the program on a storage, killed before the effect of number `fuel`. -/
def run (env : Prov.Env) (opens : Bool) (f : Prov.Files) (net : Asked → List Http.Transfer) (url : String) (headers : List String)
    (fuel : Nat) (t : Prov.Store) : Except Err Bool × Prov.St Web :=
  main env opens f net url headers { store := t, srv := {}, fuel := fuel }

end Aktualizr.Get
