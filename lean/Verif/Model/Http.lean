import Verif.Model.Monad

/-!
# HTTP responses

Models how `src/libaktualizr/http/httpclient.cc` collects a response. curl's own limit
(`CURLOPT_MAXFILESIZE_LARGE`), timeouts and TLS appear only as ways a transfer may end.
-/

namespace Aktualizr.Http

/-- What the server does in one attempt: the chunks curl would deliver, whether curl succeeds if
they are all taken, and the HTTP status. -/
structure Transfer where
  chunks : List (List UInt8)
  curlOk : Bool
  status : Int

/-- `HttpResponse` (httpinterface.h:16-36). -/
structure Response where
  body : List UInt8
  curlOk : Bool
  status : Int
  deriving DecidableEq

/-- `HttpResponse::isOk` (httpinterface.h:29). -/
def Response.isOk (r : Response) : Bool := r.curlOk && decide (200 ≤ r.status) && decide (r.status < 400)

/-- `writeString` (httpclient.cc:22-36) called for each chunk; returns the text and whether all
chunks were taken. curl aborts the transfer when the number returned is not the size given, so
that 0 is no refusal of an empty chunk. -/
def writeString (limit : Int) : List (List UInt8) → List UInt8 → List UInt8 × Bool
  | [], out => (out, true)
  | c :: cs, out =>
    if limit > 0 ∧ (out.length + c.length : Int) > limit then
      if c.length = 0 then writeString limit cs out else (out, false)
    else writeString limit cs (out ++ c)

/-- One call of `curl_easy_perform` (httpclient.cc:201-206). -/
def attempt (limit : Int) (t : Transfer) : Response :=
  let r := writeString limit t.chunks []
  { body := r.1, curlOk := r.2 && t.curlOk, status := t.status }

/-- `HttpClient::perform` (httpclient.cc:183-220), with the attempts the server makes of it;
`none` when the process ends before it returns. -/
def perform (limit : Int) : Nat → List Transfer → Option Response
  | _, [] => none
  | retry, t :: ts =>
    let r := attempt limit t
    if !r.curlOk || decide (r.status ≥ 500) then
      match retry with
      | 0 => some r
      | k + 1 => perform limit k ts
    else some r

/-- `RETRY_TIMES` (httpclient.h:82). -/
def retryTimes : Nat := 2

/-- `HttpClient::get` (httpclient.cc:121-139). -/
def get (limit : Int) (ts : List Transfer) : Option Response := perform limit retryTimes ts

end Aktualizr.Http
