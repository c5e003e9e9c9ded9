import Verif.Model.Hash
import Verif.Model.Json
import Verif.Spec.Response
import Verif.Props.SampleXml
import Verif.Props.Sample
/-! The project's own tests of the whole service, `/repo/tests/service/main.rs`, replayed on the model with the real hash functions.
These are tests, not proofs. -/
namespace S3.Conformance
open Spec

/-- the storage directory of the tests, `/repo/tests/service/main.rs:45-70` -/
def testCfg : Cfg := { root := [b!"t"], cwd := [], keepSlash := true, dirLen := 4096 }

/-- no content types, no policies: the tests use neither, `/repo/tests/service/main.rs:96-103` -/
def testLib : Lib := { crypto := realCrypto, mime := fun _ => none, xml := plainXml }

/-- a service without authentication reads in one go, `/repo/tests/service/main.rs:72-85` -/
def testEnv : Env := { wants := fun _ => 4096, fuel := 10, uuid := [] }

/-- the message of the expected error, `/repo/tests/service/main.rs:333-342,370-379,408-420` -/
def testTexts (message : Option Bytes) : Texts :=
  { gt := false, message, zone := fun _ => ⟨0, by decide⟩, modified := fun _ _ => ⟨0, 0, by decide, by decide⟩, created := fun _ => ⟨0, 0, by decide, by decide⟩ }

/-- a request of the tests, `/repo/tests/service/main.rs:96-106` -/
def testReq (method path : Bytes) (body : Body) : Req :=
  { method, path, query := none, headers := [(b!"x-amz-content-sha256", b!"UNSIGNED-PAYLOAD")], body }

/-- `fs::create_dir`, `/repo/tests/service/main.rs:122-123` -/
def testDir (p : Path) : Prog Unit := do
  let _ ← call (.mkdir p)

/-- the empty storage directory, `/repo/tests/service/main.rs:45-70` -/
def testRoot : Prog Unit := testDir [b!"t"]

/-- `fs_write_object`, `/repo/tests/service/utils.rs:49-68` -/
def testObject : Prog Unit := do
  testRoot
  testDir [b!"t", b!"asd"]
  Sample.writeFile [b!"t", b!"asd", b!"qwe"] b!"Hello World!"

/-- the file tree made by a preparation, `/repo/tests/service/main.rs:72-85` -/
def prepared (p : Prog Unit) : FS := (run testCfg p Sample.empty).2

/-- status, content type and body of the response, `/repo/tests/service/main.rs:108-113,326-342` -/
def testResult (method path : Bytes) (body : Body) (message : Option Bytes) (fs : FS) : Option (Nat × Option Bytes × Option Bytes) :=
  match responded testCfg (realExt id) testLib none testEnv (testTexts message) (testReq method path body) fs with
  | .ok r => some (r.status, r.headers.lookup b!"content-type", r.body)
  | _ => none

/-- the file tree after the request, `/repo/tests/service/main.rs:140-144` -/
def testAfter (method path : Bytes) (body : Body) (fs : FS) : FS :=
  afterResponded testCfg (realExt id) testLib none testEnv (testTexts none) (testReq method path body) fs

/-! ### `mod success`, `/repo/tests/service/main.rs:87-305` -/

example : testResult b!"GET" b!"/asd/qwe" [] none (prepared testObject) = some (200, none, some b!"Hello World!") := by decide +kernel

example : let fs := prepared (do testRoot; testDir [b!"t", b!"asd"])
    testResult b!"PUT" b!"/asd/qwe" [some b!"Hello World!"] none fs = some (200, none, some []) ∧
    contentAt (testAfter b!"PUT" b!"/asd/qwe" [some b!"Hello World!"] fs) [b!"t", b!"asd", b!"qwe"] = some b!"Hello World!" := by decide +kernel

example : testResult b!"DELETE" b!"/asd/qwe" [] none (prepared testObject) = some (204, none, some []) ∧
    (testAfter b!"DELETE" b!"/asd/qwe" [] (prepared testObject)).lookup [b!"t", b!"asd", b!"qwe"] = none := by decide +kernel

example : testResult b!"PUT" b!"/asd" [] none (prepared testRoot) = some (200, none, some []) ∧
    (testAfter b!"PUT" b!"/asd" [] (prepared testRoot)).lookup [b!"t", b!"asd"] = some .dir := by decide +kernel

example : let fs := prepared (do testRoot; testDir [b!"t", b!"asd"])
    testResult b!"DELETE" b!"/asd" [] none fs = some (204, none, some []) ∧
    (testAfter b!"DELETE" b!"/asd" [] fs).lookup [b!"t", b!"asd"] = none := by decide +kernel

example : let fs := prepared (do testRoot; testDir [b!"t", b!"asd"])
    testResult b!"HEAD" b!"/asd" [] none fs = some (200, none, some []) := by decide +kernel

/-- the texts of the elements `Name` in a document, `/repo/tests/service/main.rs:279-302` -/
def testNames (doc : Bytes) : Option (List Bytes) := (readXml doc).map (textsAt [b!"ListAllMyBucketsResult", b!"Buckets", b!"Bucket", b!"Name"])

example : let fs := prepared (do testRoot; testDir [b!"t", b!"asd"]; testDir [b!"t", b!"qwe"])
    ((testResult b!"GET" b!"/" [] none fs).bind fun r => r.2.2.bind testNames) = some [b!"qwe", b!"asd"] ∧
    (testResult b!"GET" b!"/" [] none fs).map (·.1) = some 200 := by decide +kernel

/-! ### `mod error`, `/repo/tests/service/main.rs:307-424` -/

example : testResult b!"GET" b!"/asd/qwe" [] (some b!"The specified key does not exist.") (prepared testRoot) = some (404, some b!"text/xml",
    some b!"<?xml version=\"1.0\" encoding=\"UTF-8\"?><Error><Code>NoSuchKey</Code><Message>The specified key does not exist.</Message></Error>") := by
  decide +kernel

example : testResult b!"HEAD" b!"/asd" [] (some b!"The specified bucket does not exist.") (prepared testRoot) = some (404, some b!"text/xml",
    some b!"<?xml version=\"1.0\" encoding=\"UTF-8\"?><Error><Code>NoSuchBucket</Code><Message>The specified bucket does not exist.</Message></Error>") := by
  decide +kernel

example : let message := b!"The requested bucket name is not available. The bucket namespace is shared by all users of the system. Please select a different name and try again."
    testResult b!"PUT" b!"/asd" [] (some message) (prepared (do testRoot; testDir [b!"t", b!"asd"])) = some (409, some b!"text/xml",
      some (b!"<?xml version=\"1.0\" encoding=\"UTF-8\"?><Error><Code>BucketAlreadyExists</Code><Message>" ++ message ++ b!"</Message></Error>")) := by
  decide +kernel

end S3.Conformance
