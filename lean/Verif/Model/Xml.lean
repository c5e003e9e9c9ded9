import Verif.Base.Bytes
/-! Text content of XML responses: `/repo/src/utils/xml.rs` writes it with
`XmlEvent::characters`, which escapes it (xml-rs `escape_str_pcdata`). -/
namespace S3

/-- One byte of xml-rs `escape_str_pcdata`, behind `/repo/src/utils/xml.rs:55-59`. `gt` says whether
the version of xml-rs also escapes `>` (0.8.4 does not, later ones do); theorems hold for both. -/
def xmlEscapeByte (gt : Bool) (b : UInt8) : Bytes :=
  if b = 60 then b!"&lt;"
  else if b = 38 then b!"&amp;"
  else if b = 62 ∧ gt = true then b!"&gt;"
  else [b]

/-- `/repo/src/utils/xml.rs:55-59` `element`: the text between the tags -/
def xmlText (gt : Bool) (s : Bytes) : Bytes := s.flatMap (xmlEscapeByte gt)

end S3
