import Verif.Spec.Ops
import Verif.Spec.Form
/-! The same request, cut into packets differently. -/
namespace S3.Spec
open S3

/-- the two bodies deliver the same bytes, in whatever pieces, and both break off behind them or neither does -/
structure SameBytes (b b' : Body) : Prop where
  bytes : received b' = received b
  whole : unbroken b' ↔ unbroken b

/-- The two requests are the same but for the pieces in which their bodies arrive. -/
structure SameButPackets (r r' : Req) : Prop where
  method : r'.method = r.method
  path : r'.path = r.path
  query : r'.query = r.query
  headers : r'.headers = r.headers
  body : SameBytes r.body r'.body

end S3.Spec
