import Verif.Model.Core
import Verif.Model.F64

/-!
# The body of an answer to an HTTP query

Instants are nanoseconds since 1970-01-01T00:00:00Z here.
-/

namespace Trypo.Api

/-- What `encoding/json` can write as a number (core/api/handler.go:131, `Vec` of core/api/conv.go:10): NaN and the infinities are errors. -/
def jsonNumber : F64 → Bool
  | .fin _ _ => true
  | _ => false

/-- What `time.Time.MarshalJSON` can write (core/api/handler.go:131, `Expires` of core/api/conv.go:12; used whether or not `ExpireEnabled`): years
0 to 9999. Simplification: the year is the one in UTC, while Go takes the one in the location of the value. -/
def jsonTime (t : Int) : Bool := decide (-62167219200000000000 ≤ t) && decide (t < 253402300800000000000)

/-- core/api/handler.go:131, for one element. -/
def jsonDP (d : DP F64) : Bool := d.vec.all jsonNumber && jsonTime d.expires

/-- core/api/handler.go:131-133: the datapoints that the body lists. `json.Marshal` gives no bytes at all if one element cannot be written; the
error is ignored, and the body is empty then (`none`). -/
def marshal (l : List (DP F64)) : Option (List (DP F64)) := if l.all jsonDP then some l else none

/-- What is written for a request: the HTTP status, and what the body lists. core/api/handler.go:131-133 if the request could be decoded;
core/api/handler.go:42-44 writes a status and no body if not. -/
def respond (r : Nat × List (DP F64)) : Nat × Option (List (DP F64)) := (r.1, if r.1 = 200 then marshal r.2 else none)

/-- core/api/handler.go:93-134 `queryDataPoint` with the body. -/
def queryHTTP (env : Env) (addrs : List Addr) (body : Option (QueryOpts F64)) : Prog F64 (Nat × Option (List (DP F64))) := do
  let r ← queryDataPoint env addrs body
  pure (respond r)

end Trypo.Api
