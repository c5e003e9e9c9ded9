# Formal model of datenlord/s3-server — design

Source modelled: `/repo` (Rust, pinned commit). Everything below is read from the text of
the code; nothing of it is built or run. Proof assistant: Lean 4.33.0.

## Layout

| directory | content |
|---|---|
| `lean/Verif/Base/` | bytes, byte-literal macro, list and order lemmas |
| `lean/Verif/Model/` | the model, about one Lean file per Rust source file; every definition cites file and lines |
| `lean/Verif/Spec/` | small specifications used in theorem statements, stated without the model's parsers and programs |
| `lean/Verif/Lemmas/` | helper lemmas |
| `lean/Verif/Props/` | the property theorems `Cnn_*`, each with `example`s that meet its hypotheses on concrete data |
| `seeded/LOG.jsonl` | wrong programs tried against the theorems |

## Modelling decisions

* **Strings** are `List UInt8` (the UTF-8 bytes of a Rust `str`, or raw bytes). Rust's `str` ordering is
  byte-lexicographic, lengths are byte lengths, and every parser of the project splits at ASCII bytes, so bytes
  lose nothing. Where a nom parser counts *characters* (`take(4)` on `&str`) the taken text is afterwards required
  to be ASCII digits, so counting bytes gives the same verdict.
* **File system** (`Model/Fs.lean`). A file tree over absolute paths (lists of components) with inodes:
  `nodes : path -> dir | file inode`, `data : inode -> bytes`. An inode is named by the path at which it was
  created and a generation number, so an unlinked file stays readable and a new file of the same name is another
  inode. A write at an offset beyond the end leaves a hole of zero bytes.
  Not modelled: symbolic and hard links, permissions, PATH_MAX, times other than those of *Times*,
  non-UTF-8 names, directory sizes (a configuration parameter). NAME_MAX (255), NUL bytes and trailing slashes are
  modelled. `remove_dir_all` is one atomic step, which may fail half way; C126 refines it to a removal entry by entry with other
  requests in between (`Model/Sweep.lean`) and carries the theorems over. It is taken to report an error when the directory itself is
  gone. `create_dir_all` follows the algorithm of the standard library
  (try `mkdir`, on ENOENT go to the parent, on other errors ask `is_dir`). A whole-file read (metadata, MD5 of a
  finished file) and a copy are one step each way; body transfers are split in fragments. C129 takes all of them apart
  (`Model/Pieces.lean`) and carries the theorems over. `read_dir` is one step; C130 allows every answer POSIX
  allows for a directory that changes while a listing reads it (`Model/Looks.lean`, `Spec/Looks.lean`; the entries are handed over at once, with what is
  found later foretold). DeleteObject of a folder reads its first entry in one step.
* **Failing disk** (`Model/Fault.lean`). Every system call may fail although the file tree allows it: without its effect,
  after it, or half way (a beginning of a write, a part of `remove_dir_all`). The runs without faults (`run`, `runN`, `runPar`) are the
  ones of the other theorems. Writes are taken to be reported at the call: `futures::io::copy_buf` and `copy` flush before they
  return, and `async_fs::write` is `std::fs::write` (from memory). Kinds of errors are not told apart; an error of `file_type` counts as one of
  `read_dir`; errors on closing a file are not modelled.
  What is lost in a failure of the power because `fsync` is not called is a relation between a run and the tree found afterwards (`Spec/Power.lean`).
  `runParF` runs several requests at a time on such a disk. A *life* of the server (`Spec/Life.lean`) is a list of epochs: each one serves
  requests at the same time, for any number of steps; then the server is gone, and the next one starts on the tree that is left.
* **Programs.** Operations of the storage are programs in a free monad `Prog` over atomic system calls. One
  program has three semantics: sequential run (`run`), stop after any number of system calls (`runN`, a crash of
  the process), and interleaving with any other programs under any schedule (`runPar`). Errors (`fail code`), a
  panic (`panic`) and exhaustion of an unbounded loop (`diverge`) are outcomes of a program.
* **Path resolution** (`Model/Resolve.lean`) models `path_absolutize`/`path_dedot` with
  `absolutize_virtually`: `..` removes a component and never goes above the root of the file system, `.` at the
  front and empty components vanish, a result outside the storage root is an error. A path `a/..` is taken to
  resolve to the directory itself.
* **Hash functions.** MD5, SHA-256 and HMAC-SHA-256 are parameters of the model: theorems hold for every function
  in their place; security statements exhibit a collision. `CryptoLaw` (SHA-256 has 32 bytes, HMAC has 32 bytes, the
  hash of the empty text is the constant of the code) is a hypothesis where it is needed. `Model/Hash.lean` defines the
  three functions after FIPS 180-4, RFC 2104 and RFC 1321, and `realCrypto_law` proves the hypothesis for them.
* **Conformance.** `Props/Conformance.lean` replays the unit tests of the project (signatures, chunked uploads, paths,
  ranges, authorization headers, forms) on the model with the real hash functions. These are tests of the model, not
  proofs; they are there because the code cannot be run here. `Props/ConformanceService.lean`
  replays the project's tests of the whole service (`tests/service/main.rs`) on `hyperCall`.
* **Serialisation of metadata** (`serde_json`) is the parameter `Ext` with the law `MetaLaw` (decoding what was
  encoded gives it back, for maps of UTF-8 texts); the law is a hypothesis of the theorems that need it.
  `Model/Json.lean` models the writer and the reader of `serde_json` 1.0 on string maps (from memory of the crate and
  RFC 8259) and `realExt_law` proves the law for them, for every order in which the hash map is iterated.
* **External crates and protocols.** Neither the sources nor the documentation of the dependencies, nor the AWS
  documentation, were at hand (no network). What is modelled of the crates, and the specifications that refer to AWS or
  RFCs, were written from memory and have not been compared with the originals; they are part of the trusted base.
  Modelled so: `path_absolutize`, `urlencoding`, `form_urlencoded`
  (through `serde_urlencoded`), the `nom` combinators used, `base64-simd` (URL-safe; the check of the standard alphabet), `hex-simd`, `httparse`
  1.7 `parse_headers`, `http` header name and value syntax, `xml-rs` text escaping (`<`, `&`; `>` is left alone).
  Parameters (structure `Lib`): the hashes, `str::parse::<Mime>`, and the
  reader of `quick_xml` from text to elements, with the law `XmlLaw` (documents are read as they are written; the relation
  is in `Spec/XmlBody.lean`) as a hypothesis; `plainXml_law` proves it for a simple reader. What the derived deserialisers make
  of the elements is modelled in `Model/Deserialize.lean`, from memory of `quick_xml` 0.27 and `serde`; the treatment of
  texts, lists and booleans there is the least certain part. `uuid` is a parameter of the request (`Env`). Of `chrono` are modelled
  the date check of a credential and, in `Model/Time.lean`, RFC 3339 writing and reading and the HTTP date.
* **Streams** are lists of fragments, each bytes or an I/O error. Response bodies are read with arbitrary
  read sizes (`wants`).
* `List.mergeSort` does not evaluate in the kernel; the stable sorts of the code are modelled by insertion sort
  `isort`, which gives the same list for the same stable order.
* **Responses.** `hyper_call` is modelled up to the response that is handed to hyper: status, headers, body. The XML
  writer is a function from events to bytes. Texts that the model does not compute (messages of errors) are
  parameters (structure `Texts`), over which the theorems quantify.
* **Times.** In most of the model the file tree has no times: what `metadata` says of the modification time of an object's file and of
  the creation time of a bucket's directory are parameters (functions of bucket and key, in `Texts`), and so is the offset
  of the local time zone at any moment (less than a day, whole minutes). The texts in responses are computed from them. C108 adds the
  times (`Model/Clock`): every system call happens at a time that the clock shows, about which nothing is assumed (it may stand still
  or go backwards); `open` with truncation and writes stamp the file, `mkdir` the directory. Times
  are from 1970 to the end of the year 9999; leap seconds do not occur in them.
* Not modelled: tracing, what hyper does with a response (body of HEAD, `Date`), the listener of `src/bin`, and
  `AsyncReadExt` buffering of uploads (a finer or coarser fragmentation, over which the theorems quantify).

## Proof methods

* *Sequential operations*: symbolic run of the program (`Lemmas/Get`, `Lemmas/Put`, ...), induction on part
  lists, key lists, directory walks.
* *All operations at once*: `Safe ok Q p` (every system call of `p` satisfies `ok`, every result satisfies `Q`),
  proved once per operation (`op_safe`), gives confinement, frames and error codes.
* *Concurrency*: `wp` with a rely relation and `runPar_wp` (Lemmas/Wp). Invariants hold for all schedules and any
  number of requests.
* *Crashes*: the same `wp` with an assertion at every intermediate state.
* *Histories*: simulation between file tree and abstract map (`Spec/Store`), induction on the list of requests.
* *Parsers*: equivalence with a relation, in both directions; decoders by induction on fragments.
* *False properties*: a concrete request sequence on `Sample.fs` evaluated by the kernel (`decide +kernel`), named
  `..._fails` or `..._witness`.

## Trusted base

* Lean's kernel; the axioms reported by `#print axioms` for every theorem are a subset of `propext`,
  `Classical.choice`, `Quot.sound`. No own axioms, no `sorry`, no compiled evaluation. Mathlib is not used.
  The list per property theorem is at the end of this file.
* The faithfulness of `Model/*` to the Rust text (by reading), including the behaviour of the external crates and
  of Linux file system calls described above.

### Which code is modelled

| file in `/repo/src` | model | not modelled |
|---|---|---|
| `path.rs` | `Path.lean`, all | |
| `headers/range.rs`, `amz_date.rs`, `amz_copy_source.rs`, `amz_content_sha256.rs`, `authorization_v4.rs` | `Range`, `AmzDate`, `CopySource`, `Authorization`, all | |
| `data_structures/ordered_headers.rs`, `ordered_qs.rs`, `bytes_stream.rs` | `Ordered`, `BytesStream`, all | capacity hints |
| `streams/aws_chunked_stream.rs`, `multipart.rs` | `Chunked`, `Form`, all | |
| `signature_v4.rs`, `utils/crypto.rs` | `Signature`, all; `Hash` for the hash functions | |
| `auth.rs` | `Auth`, all | `Debug` |
| `errors.rs` | `Errors`: codes, texts, status; `Response`: the document | wording of messages, sources, backtraces |
| `service.rs` | `Service`, `Dispatch`: `handle`, `check_signature` and what they call; `Response`: `hyper_call` | `hyper::Service` glue |
| `ops.rs`, `ops/*.rs` | `Dispatch`: `is_match`, `extract`, status; `Response`: headers, XML documents | fields the storage ignores |
| `storages/fs.rs` | `Resolve`, `Storage`, all sixteen operations; when files and buckets get which times: `Clock` | - |
| `utils/time.rs` | `Time`, all | |
| `utils/response.rs`, `utils/xml.rs`, `output.rs` | `Response`, `Xml`, all | |
| `internal_macros.rs`, `storage.rs`, `dto.rs` | implicit in the above | |
| `src/bin` | `Binary`: options, storage, keys | tracing, `dotenv`, listener |

## Findings: where code and property disagree

Each is a theorem with a concrete witness (named in brackets).

* C04: a key with `..` reaches another bucket [`C04_bucket_isolation_fails`].
* C05: `d//x` and `d/x` are one file [`C05_distinct_storage_fails`].
* C08: a suffix range longer than the object is refused [`C08_ranged_get_fails`].
* C09: `bytes=a-b` with `b` past the end announces more bytes than are sent [`C09_content_length_fails`].
* C10: a satisfiable suffix range is refused [`C10_unsatisfiable_ranges_fails`].
* C12: a folder key can be put but not read [`C12_read_your_write_fails`].
* C13: an ETag is wrong for a copy whose source is the metadata file of the destination; a folder object has none [`C13_etag_fails`].
* C14: a self-copy empties the object; a copy into a missing folder fails with 500 [`C14_map_refinement_fails`, `C14_copy_into_new_folder_fails`].
* C15: an alias key overwrites another object [`C15_frame_fails`].
* C16: DELETE of a non-empty folder key answers success and removes nothing [`C16_deleted_gone_fails`].
* C17: DELETE of an absent key answers 500 [`C17_delete_idempotent_fails`].
* C18: a self-copy empties the object [`C18_copy_fails`].
* C19: a PUT without metadata keeps the metadata of the former object [`C19_metadata_fails`].
* C20: an alias key is listed under another name [`C20_listing_fails`].
* C23: DeleteBucket removes a bucket that holds objects [`C23_delete_bucket_fails`].
* C24: CompleteMultipartUpload to a key in a missing directory fails with 500 [`C24_multipart_fails`].
* C25: a refused CompleteMultipartUpload truncates the object and consumes parts [`C25_refused_complete_fails`].
* C26: a duplicate key makes DeleteObjects answer 500 after the deletion [`C26_delete_objects_fails`].
* C27: HEAD of a directory answers 200, GET 500 [`C27_head_get_fails`].
* C29: a PUT that breaks off leaves a truncated object [`C29_failed_put_fails`].
* C30: PUT creates a missing bucket [`C30_missing_bucket_fails`].
* C33: a reader beside an overwrite sees a mixture [`C33_torn_reads_fails`].
* C34: a crash leaves a truncated object [`C34_crash_in_put_fails`].
* C38: an escaped path is encoded a second time for the signature [`C38_escaped_path_fails`].
* C43: expiry of a presigned URL is not enforced [`C43_expiry_fails`].
* C44: an unsigned `x-amz-copy-source` header turns a signed PUT into a copy [`C44_unsigned_header_fails`].
* C45: the conditions of a POST policy are not enforced [`C45_policy_fails`].
* C50: a chunked upload cut at a chunk boundary is accepted [`C50_truncation_fails`].
* C52: a form cut inside its first line by the transport is refused [`C52_form_fragmentation_fails`].
* C55: requests for sub-resources (`?acl`, ...) run the base operation [`C55_subresource_fails`].
* C56: `PUT /?partNumber=1&uploadId=x` panics [`C56_panic_fails`].
* C57: UploadPartCopy runs as CopyObject and overwrites the object [`C57_part_copy_fails`].
* C58: one error code has status 200 [`C58_success_status_witness`].
* C64: form metadata with a line feed makes GET and HEAD answer 500 [`C64_form_metadata_fails`].
* C65: CR in a key is read back as LF, control characters are ill-formed XML [`C65_carriage_return_witness`, `C65_control_witness`].
* C69: a declared payload checksum is not compared with the body [`C69_declared_checksum_fails`].
* C70: concurrent uploads to one object may leave a mixture [`C70_same_object_fails`].
* C71: a control character in a key or delimiter makes the whole listing unreadable; a carriage return is shown as a line feed [`C71_listing_fails`].
* C73: as C26 [`C26_delete_objects_fails`].
* C74: the root element of CreateMultipartUpload is `InitialMultipartUploadResult` [`C74_create_fails`].
* C75: HEAD has no ETag header [`C75_head_etag_fails`].
* C82: a GET that has found the object is answered InternalError when the object is deleted before its ETag is computed [`C82_get_during_delete_fails`].
* C86: a listing is answered InternalError when an object is deleted between the reading of its directory and the question for its size; a key whose object is replaced by a folder in this moment is listed with the size of the folder; a listing is not a picture of one moment [`C86_listing_during_delete_fails`, `C86_folder_listed_fails`].
* C88: CopyObject reports as LastModified the modification time of the source, not that of the object it made [`C88_copy_time_fails`].
* C89: as C14, seen by a client [`C89_client_fails`].
* C90: DeleteObjects ignores Quiet and VersionId: the deleted keys are listed in quiet mode, and a request for an unknown version deletes the object [`C90_quiet_fails`, `C90_version_fails`].
* C91: CompleteMultipartUpload reads the ETags of the parts and does not compare them [`C91_etag_fails`].
* C92: the location given to CreateBucket is dropped; GetBucketLocation always answers with an empty one [`C92_location_fails`].
* C93: upload ids are neither recorded nor bound to a bucket and key: ids never issued are accepted, and an upload can be completed under another key [`C93_upload_id_fails`].
* C101: a failing look at a metadata file is taken for "no metadata", a failing open or stat for a missing object or bucket [`C101_read_fails`].
* C102: a failing existence check makes CopyObject skip the metadata and DeleteObjects skip the object, both with success [`C102_skip_fails`].
* C104: PutObject truncates the old object before the new one is complete; an error (disk full) loses the old content [`C104_old_lost_fails`].
* C108: an object written twice within one second shows the same Last-Modified [`C108_same_second_fails`].
* C109: nothing is forced to the disk: after a failure of the power an acknowledged upload can be gone or full of zeros, an acknowledged deletion undone, and an acknowledged completion can lose the object together with its parts [`C109_acknowledged_fails`, `C109_complete_fails`].
* C110: CompleteMultipartUpload cannot be sent again: a repetition empties the object it had put together, a retry after a failure loses the parts already used, and two at a time can acknowledge an object with a hole [`C110_complete_fails`, `C110_complete_retry_fails`, `C110_complete_in_flight_fails`].
* C111: a DeleteObjects that finds one of its keys gone in the middle is answered with an error, although it has deleted others: those are gone and nobody was told [`C111_nobody_told_fails`].
* C112: a presigned URL whose path has an escape is refused (as C38); `${filename}` in the key of a form is not replaced; fragments that split the first line of a form break it (C52) [`C112_escaped_path_fails`, `C112_filename_fails`].
* C114: the server silently ignores parameters of the S3 API: If-Match/If-None-Match (a PUT that must not overwrite overwrites), Content-MD5, max-keys, delimiter, marker, start-after, continuation-token, versionId (a DELETE of a version deletes the object), Content-Type, x-amz-metadata-directive; an unknown header with a value that is not ASCII makes the request fail [`C114_condition_fails`, `C114_checksum_fails`, `C114_listing_fails`, `C114_version_fails`, `C114_content_type_fails`, `C114_directive_fails`, `C114_header_fails`].
* C115: `max-keys` is ignored: the first page has all keys [`C115_page_size_fails`].
* C116: another spelling of a key (`./x`) can be read but is not listed; a HEAD of a folder is answered 200 [`C116_unlisted_fails`].
* C117: a GET for one byte reads the whole object (for the ETag); a listing visits every folder of the bucket whatever the prefix [`C117_range_fails`, `C117_listing_fails`].
* C118: a signed form is accepted in one piece and refused when its first line arrives in two [`C118_form_fails`].
* C119: a copy of a signed request is served again, at any time: an old upload brings the old content back [`C119_replay_fails`].
* C120: a DELETE of the key `../` removes the storage directory if it is empty; after that every ListBuckets and CreateBucket is answered 500 [`C120_root_removed_fails`].
* C121: a key that starts with a slash is a path of the machine: it names an object while the store is in the directory it happens to spell, and is answered 500 after a move [`C121_absolute_key_fails`].
* C123: the DELETE of an object leaves its metadata file, the parts of an upload that was not completed and the folders made on the way; a folder left over blocks an object of its name (500) [`C123_litter_fails`, `C123_folder_fails`].
* C125: uploads (and copies, completions, deletions of several objects) do not happen at one moment: while an object is replaced, it is empty for a while (`C125_upload_fails`) [`C125_upload_fails`].
* C126: the deletion of a bucket does not happen at one moment: in between, and after a crash, some of its objects are gone and others are there (`C126_delete_bucket_fails`) [`C126_delete_bucket_fails`].
* C129: a GET beside an upload of the same object can get an ETag that belongs to no content the object has ever had (`C129_etag_fails`) [`C129_etag_fails`].
* C130: an object that is replaced while its bucket is listed can be shown twice (`C130_twice_fails`) [`C130_twice_fails`].
* C131: a copy onto another spelling of the same key empties the object; metadata are kept per spelling, so the two spellings of one object can show different metadata (the machine says so; `S3.Sample.odd_answers` for the copy) [].

Further observations made while reading, not stated as properties: upload ids are not bound to bucket and key and may
contain `/..`; `versionId`, `max-keys` and `delimiter` are ignored; there is no `206`/`Content-Range`; chunk size
fields longer than eight digits and text behind the digits are accepted; the service and date of a credential are not
compared with the request; losers of a CreateBucket race may answer 500; the metadata file name of a long key may
exceed NAME_MAX, so a PUT with metadata fails after the object was written.

## Properties

P = proved as stated, N = false of the code in full: a `_fails`/`_witness` theorem refutes the full statement and a
`_partial` theorem holds the provable part.

| id | kind | property | model | method | what is proved |
|---|---|---|---|---|---|
| C01 | P | Request path addressing is exact | `tryFromPath` | iff with a relation |  |
| C02 | P | Bucket naming rule is exact | `checkBucketName`, IPv4 parser | iff with a rule |  |
| C03 | P | No request touches files outside the storage root | all operations | `op_safe` + frame | All operations, every input, also at every crash point; unread part as non-interference. |
| C04 | N | An object request stays inside its bucket | `resolveVirtual` | induction on components | False of the code for keys with .. components (witness proved); proved for relative keys without .. components. |
| C05 | N | Different objects never share storage | `resolveVirtual` | injectivity | False of the code (d//x and d/x share a file, witness proved); proved for plain keys. |
| C06 | P | User metadata of different objects never share storage | `metadataName` | injectivity of base64 | All buckets, keys and upload ids. |
| C07 | P | Range header grammar is exact | `Range` | iff with a grammar |  |
| C08 | N | Ranged GET returns exactly the requested bytes | `getObject` | symbolic run | every successful GET delivers exactly the selected bytes; suffix ranges longer than the object are refused (negation proved) |
| C09 | N | Content-Length announces the body that is sent | `getObject` | symbolic run | holds without Range, for open and suffix ranges and closed ranges inside the object; false for closed ranges ending after the object (negation proved) |
| C10 | N | Unsatisfiable ranges are refused | `rangeSlice` | arithmetic | exact characterisation of refused ranges; satisfiable suffix ranges are refused (negation proved) |
| C11 | P | Body streaming is independent of read sizes | `BytesStream` | induction on reads |  |
| C12 | N | Read your write | `putObject`, `getObject` | symbolic run | Proved for every key not ending in '/', objects below 2^63 bytes and readable metadata; the full property is false of the code for folder keys (negation proved). |
| C13 | N | ETag is the MD5 of the content | writers | symbolic run | PutObject, UploadPart, CompleteMultipartUpload, GetObject, CopyObject; refuted for a copy whose source aliases the destination's metadata file and for folder keys |
| C14 | N | The store behaves as a map | all operations | simulation, induction on histories | For every history of requests on a prefix-free set of plain addresses (mixed with arbitrary requests elsewhere) the answers are those of a map-based store, from any represented state and from an empty directory. Excluded: self-copy and copy into a missing folder (refuted by witnesses), broken bodies (C29). |
| C15 | N | Writing one object leaves every other object alone | writers | frame | False for aliasing keys (witness proved); proved for plain keys. |
| C16 | N | Deleted objects are gone | `deleteObject` | symbolic run | Proved for keys not ending in '/': GET and HEAD answer NoSuchKey and no listing shows the key. False for a non-empty folder key, which DELETE answers with success without removing anything. |
| C17 | N | DeleteObject is idempotent | `deleteObject` | symbolic run | The code answers InternalError to a DELETE of an absent key; the partial theorem shows the state is unchanged by it. |
| C18 | N | CopyObject copies and keeps its source | `copyObject` | symbolic run | Proved for different source and destination; a self-copy empties the object. |
| C19 | N | GET returns the metadata of the last PUT | metadata | symbolic run | Proved for a PUT with metadata, or without over an object that has none; false for a PUT without metadata over stale metadata (negation proved). |
| C20 | N | Listing is complete, exact, sorted and duplicate-free | `listObjects` | invariant of the walk, sorting | Proved for stored keys in plain form; an object put under an alias key such as d//x is not listed under it. |
| C21 | P | ListBuckets is exact | `listBuckets` | filter |  |
| C22 | P | CreateBucket creates once | `createBucket` | symbolic run | the lifecycle of a bucket under CreateBucket, HeadBucket and listing, for every legal name and tree |
| C23 | N | DeleteBucket removes the bucket and nothing else | `deleteBucket` | symbolic run | removes exactly the bucket and its content; refuted: a bucket that still holds objects is not refused |
| C24 | N | Multipart upload assembles parts in order | `uploadPart`, `completeLoop` | induction on parts | any order and repetition of uploads with other requests in between; refuted for keys in a directory that does not exist yet |
| C25 | N | A refused CompleteMultipartUpload changes nothing | `completeLoop` | invariant | other objects and unlisted parts unchanged, no part's bytes lost; refuted: the named object and listed parts may change |
| C26 | N | DeleteObjects deletes exactly the named existing objects | `deleteObjects` | induction on keys | distinct plain keys that name no directory; refuted for duplicates |
| C27 | N | HEAD agrees with GET | `headObject` | symbolic run | HEAD and GET agree unless the key names a directory, where they differ (negation proved) |
| C28 | P | Read operations do not change the store | readers | `Safe` |  |
| C29 | N | A failed PutObject leaves the old object | `putObject` | symbolic run | Proved: after a refused PUT the object is the old one or a prefix of the new body, and unchanged when the error is not InternalError; the full property is false (negation proved). |
| C30 | N | PutObject needs an existing bucket | `putObject` | frame | The property is false: PUT creates a missing bucket (negation proved). Proved: with an existing bucket, no bucket appears or disappears. |
| C31 | P | Concurrent CreateBucket has one winner | `createBucket` under `runPar` | rely/guarantee | all schedules, any number of concurrent requests |
| C32 | P | Concurrent requests on different objects do not interfere | `putObject` under `runPar` | rely/guarantee | all schedules, any number of concurrent requests of any kind on other addresses; success when there is room |
| C33 | N | Readers see whole objects | `getObject` under `runPar` | rely/guarantee | readers among any requests on other addresses; refuted for an overwrite of the same address |
| C34 | N | Crash during PutObject | `putObject` under `runN` | assertion at every step | At every crash point: old content or a prefix of the new body, and all other objects intact; the full property is false (negation proved). |
| C35 | P | Crash during CompleteMultipartUpload loses no part | `completeLoop` under `runN` | assertion at every step | every crash point, every list of parts |
| C36 | P | No anonymous access when authentication is configured | `checkSignature` | case analysis |  |
| C37 | P | Only correctly signed requests reach the storage | `checkSignature`, `Spec/SigV4` | case analysis | the signature is specified in Spec/SigV4.lean; the canonical URI is what the server uses (the raw path encoded), see C38 |
| C38 | N | A request signed by the AWS rules is accepted | `canonicalRequest` | round trip | false in full: the raw path is encoded a second time; proved for paths without % and signed headers that occur once |
| C39 | P | The canonical request determines the request | `canonicalRequest` | unique parsing | methods without line feeds, header names without line feeds and colons, values without line feeds (HTTP guarantees all) |
| C40 | P | The signature protects the body | `checkSignature` | reduction to a collision | collision stated for the concrete texts of the two requests |
| C41 | P | Unknown access keys are refused | `fetchSecretKey` | case analysis |  |
| C42 | P | Behaviour without a provider | `checkSignature` | case analysis |  |
| C43 | N | Expired presigned URLs are refused | `checkPresignedUrl` | reduction | false: no clock is consulted; proved that the parameters (expiry included) are covered by the signature |
| C44 | N | Headers that select the operation are covered by the signature | `headerSignature` | reduction | false: an unsigned x-amz-copy-source turns a signed upload into a copy; proved for the headers listed as signed |
| C45 | N | POST policies restrict what may be uploaded | `checkPostForm` | reduction | false: no condition of the policy is checked; proved that the policy text is authenticated |
| C46 | P | The handling does not depend on the order of query parameters or headers | `orderedQs`, `canonicalQuery` | permutation invariance of sorting |  |
| C47 | P | Chunked decoding does not depend on fragmentation | `decodeLoop` | decoder on the flat body | Decoded bytes and verdict depend only on the received bytes and on whether the body stream ended with an error. |
| C48 | P | Chunked encoding round trip | `decodeLoop` | induction on chunks | For every signature function with the shape of the real one (64 bytes, no line feed), every list of chunks, size text and fragmentation. |
| C49 | P | Only authenticated chunk bytes are delivered | `decodeLoop` | induction |  |
| C50 | N | Truncated chunked uploads are detected | `decodeLoop` | induction | Truncation inside chunk data or its line end is refused; at a chunk boundary or inside a header line the code accepts the truncated body (negation proved). |
| C51 | P | Form file content ends at the first delimiter | `fileLoop` | first occurrence of the delimiter | For every boundary, header remainder and fragmentation. |
| C52 | N | Form parsing does not depend on fragmentation | `transformLoop` | monotonicity of `tryParse` | Holds when no fragment boundary lies inside the first line; false otherwise (negation proved). |
| C53 | P | Form field lookup | `findField` | list induction |  |
| C54 | P | Header and query lookup is exact | `binSearch` | loop invariant |  |
| C55 | N | Operation dispatch is exact | `isMatch`, `extract` | table of operations in `Spec` | Every admitted request of the operation table runs its operation (complete); soundness holds for requests without repeated headers/parameters that ask for an operation the server has; false for other sub-resource requests (witnesses). |
| C56 | N | No request makes the server panic | `handle` | `Safe`, exact condition | Exact characterisation under any schedule: panic iff admitted PUT at the root with partNumber and uploadId; the property itself is false (witness). |
| C57 | N | UploadPartCopy is not executed as CopyObject | `isMatch` | symbolic run | Holds without x-amz-copy-source (plain keys, upload id without slash); false with it (witness). |
| C58 | N | Error codes round trip | `S3ErrorCode` | whole table | round trip holds for all codes; the status claim is false for ObjectNotInActiveTierError (200), proved as a witness |
| C59 | P | URI encoding is invertible | `uriEncode`, `urlDecode` | induction |  |
| C60 | P | Date header round trip | `AmzDate` | iff, round trip |  |
| C61 | P | Authorization header round trip | `Authorization` | iff with a grammar | the date part of the grammar theorem is the code's own check; C61_scope_date characterises it for digit strings |
| C62 | P | Copy source addressing is exact | `copySourceSplit` | iff |  |
| C63 | P | Access key store | `SimpleAuth` | induction on registrations |  |
| C64 | N | User metadata round trip through HTTP | `handle` | symbolic run | Holds for header metadata and for form metadata that can be sent in headers; false for form metadata with control characters, and for uploads without metadata over old metadata (C19_metadata_fails). |
| C65 | N | XML text round trip | `xmlEscape` | un-escape after escape | false for texts with CR or control characters (witnesses) |
| C66 | P | Form uploads are read as they were written | `transformMultipart` | parser on a writer's output | httparse::parse_headers is modelled from memory (no sources or documentation at hand). |
| C67 | P | Each operation fails only with its documented errors | all operations | `Safe`, any schedule | Any schedule of concurrent operations. |
| C68 | P | Folder objects hold no content | `putObject` | symbolic run | refusal for every key ending in '/'; success for keys with plain components |
| C69 | N | The declared payload checksum is that of the body | `extractSha` | iff with a grammar | the grammar and the refusal are proved; the code never compares a declared checksum with the body, C69_declared_checksum_fails is a witness |
| C70 | N | Concurrent uploads to one object leave one of the bodies | `putObject` under `runPar` | rely/guarantee | every byte is a hole or from one of the bodies at the same place, the length is bounded, the former content is gone, ETags are right; that the object is one of the bodies is false of the code, witnesses bbaa and a hole of zeros |
| C71 | N | A client reads in a listing exactly the stored objects | `hyperCall`: handler, `document`, XML writer; spec: XML reader | symbolic run, writer/reader round trip | Proved for keys, delimiters and encoding types without control characters and ]]>; false otherwise (a control character makes the document ill-formed, a carriage return is shown as a line feed): C71_listing_fails. Dot keys as in C20. |
| C72 | P | Errors reach the client as status and document | `hyperCall` under `runPar` | simulation of `handle`, round trip | For any requests under any schedule. Messages of errors are assumed to have no control characters. |
| C73 | N | DeleteObjects reports what was deleted | `hyperCall` | symbolic run, round trip | Missing: keys with control characters or ]]>, repeated keys (false: C26_delete_objects_fails), keys with dot components or slashes at the ends, keys that name directories. |
| C74 | N | Multipart documents | `hyperCall` | symbolic run, round trip | Contents proved for keys without control characters; the root element of CreateMultipartUpload is not the one of the S3 API: C74_create_fails. |
| C75 | N | Headers of PUT, GET and HEAD agree over HTTP | `hyperCall`, response headers | symbolic run | HEAD has no ETag header: C75_head_etag_fails. Missing: keys with dot components or slashes at the ends, stale metadata (C19, C64), contents larger than i64. C75_upload_part: upload ids without a slash. |
| C76 | P | A client reads in ListBuckets exactly the buckets | `hyperCall` | symbolic run, round trip | The storage root is a directory of a well-formed file tree. |
| C77 | P | Uploads in signed chunks are stored as sent | `admit`, `chunkSignature`, `poll`, `hyperCall` | C48 composed with C38 and C75 | the property is about uploads answered 200; that such requests are admitted is proved under the hypotheses of C38 (C77_accepted_partial) |
| C78 | P | Signed chunks cannot be altered, reordered, repeated or left out | `admit`, `chunkSignature`, `poll` | induction on the chain of signatures from its end | leaving out the last chunks is not excluded by the signatures (the client's chunks may be cut at the end); see C49 |
| C79 | P | What is stored is what was sent | `admit`, `transformMultipart`, `hyperCall` | C66 and C75 composed |  |
| C80 | P | Requests about different objects do not notice each other | all object operations under `runPar` | a request whose calls stay in a region that others keep does what it does alone (rely/guarantee, `wp_isolated`) | The condition on folders is part of the statement; C80_folders_needed shows that it cannot be dropped. |
| C81 | P | Parts may be uploaded in parallel | `uploadPart`, `completeMultipartUpload` under `runPar` | C80 for every part and for the completion, C24 |  |
| C82 | N | An object read while it is being deleted is read whole or not at all | `getObject`, `headObject`, `deleteObject(s)`, `deleteBucket` under `runPar` | rely/guarantee: the file is the same or gone, inodes keep their bytes | Never a part of the object; but InternalError instead of NoSuchKey is possible, shown by C82_get_during_delete_fails. |
| C83 | P | Malformed addresses and headers are refused for the right reason | `makeCtx`, `extractS3Path`, `orderedHeaders`, `hyperCall` | case analysis of the path; C01, C72 | at the level of HTTP responses |
| C84 | P | The headers of the parts of a form are read exactly | `parseContentDisposition`, `partsLoop`, `transformMultipart` | inversion of the parser; induction on the fields (C66) | fragmentations that split the first line are excluded in the statement (see C52) |
| C85 | P | Metadata files are JSON and read back the same | `serde_json::to_vec`/`from_slice` on string maps (`Model/Json`), `save_metadata`, `load_metadata` | the reader is proved equivalent to a grammar of JSON (`Spec/Json`), the writer to produce it; round trip from both | serde_json is modelled from memory (no sources or documentation at hand) (crate sources are not available here). realExt_law discharges the hypothesis MetaLaw of C12, C14, C19, C64, C75. |
| C86 | N | A listing that runs among other requests shows what is stored | `listObjects`, `listObjectsV2` under `runPar` | rely/guarantee with an invariant of the tree; induction over the queue of directories: which paths are visited, each once, and which are met for certain | The contents of a successful listing are proved for every interleaving; that it succeeds is false (witness: an object deleted between readdir and stat). |
| C87 | P | Times in responses are the times of the files | `time.rs`, `chrono` (`Model/Time`), headers and documents of GET, HEAD and the listings | calendar arithmetic by induction over years and months; the writer meets, and the reader is correct for, a relation between texts and times (`Spec/Time`) | The times of files are parameters of the model (from 1970 to 9999). C71_* and C76 are the times inside of listings. |
| C88 | N | The answer to CopyObject describes the copy | `copyObject`, its document | symbolic run; round trip of the document; witness for the time | Proved: ETag of the copy; LastModified denotes the time of the source. False: LastModified is not the time of the copy (C88_copy_time_fails). |
| C89 | N | Over HTTP the server is a map from addresses to objects | `hyperCall` on lists of HTTP requests | C14 lifted through C55 and the responses (`responded_of`); induction over the list | Excluded: self-copies (false: C89_client_fails), copies into missing folders (false: C14_copy_into_new_folder_fails), keys that are folders of one another or have dot components, ranges (C08), metadata that cannot be sent in headers (C64). The map is the one of Spec/Store (C17, C19). |
| C90 | N | DeleteObjects deletes what its document lists | derived deserialisers (`Model/Deserialize`), DeleteObjects | specification of documents as a relation; tree to keys by case analysis; C26, C73; witnesses for Quiet and VersionId | Every layout of the document; relative to the law XmlLaw for the XML reader (proved for plainXml in plainXml_law). Full statement false: Quiet and VersionId are ignored (witnesses). Excluded: repeated keys, keys naming directories, dot components, control characters, white space at the ends. |
| C91 | N | CompleteMultipartUpload assembles the parts its document lists | derived deserialisers, CompleteMultipartUpload | the same with C24 and C74; witness for the ETags | Every layout of the document; relative to XmlLaw. Full statement false: the ETags in the document are not compared (witness). Also excluded: what C24 excludes. |
| C92 | N | The location of a bucket is kept | derived deserialisers, CreateBucket, GetBucketLocation | the same with C22; witness for the location | The bucket is created and GetBucketLocation answers; full statement false: the location is dropped (witness). |
| C93 | N | Upload ids are bound to an upload | UploadPart, CompleteMultipartUpload over HTTP | witness; that ids keep parts apart is C24 | Full statement false (witness). What holds: a completed object consists only of parts uploaded with its id (C24, whose history may contain parts of other ids). |
| C94 | P | Every request is answered, whatever becomes of the others | any finite set of requests under an unending schedule (`KeepsRunning`, `firstSteps`), bound on directories visited (`atMost`) | programs are well-founded, so every thread makes finitely many calls; the file trees do not depend on the bound because listings change nothing, and come to rest; a listing of a resting tree is bounded by a weight of its queue; a larger bound extends the same run | Unending schedules are functions from steps to requests; a request keeps running if it comes up again and again. The code does not bound the number of directories a listing visits, the model does: the theorem says that there is a bound from which on the response no longer depends on it. The number of concurrent requests is finite: a listing can be kept busy by clients that create directories for ever. Requests that panic are exactly those of C56_panic_partial. Waiting for the client's own body and for the operating system is not modelled. |
| C95 | N | Clients that work on different objects do not notice each other | clients as strategies (`Client`: a request, then a continuation from the response), `conversation`: the program that serves one client, `runPar` of the conversations | the calls made for a client are those of its operations; a program that stays in a region behaves as alone while the others keep the region (`wp_isolated`), regions of several operations joined; alone, a conversation is the sequence of C89 | Isolation and termination hold for requests about objects and parts at plain addresses in existing folders (C80_folders_needed: the folders are needed). The map part has the exceptions of C89. |
| C96 | P | Spellings of the same place are the same object, different places are independent | `objectPath` with `path_dedot`, for every spelling of a key; PUT, GET, HEAD, DELETE, COPY, the multipart operations | resolution of paths follows the walk of the specification (`Walk`), by induction over the segments; then the symbolic runs and frames of C12, C15, C17, C18 at the place instead of the plain key | Exact account of aliasing, for keys of the form of a file name whose place lies inside a bucket; replaces the restriction to plain keys in C05, C12, C15 and C18. |
| C97 | P | Who may use a server started from the command line | `src/bin/s3-server.rs`: options, `FileSystem::new`, `SimpleAuth` | `canonicalize` follows the walk of C96 along existing directories (iff, by induction over the segments); C37, C42 and C63 for the provider that is set up | links in the file tree, host and port are not modelled |
| C98 | P | The policy of a form upload must be base64 text | `is_base64_encoded` (`base64-simd` STANDARD, from memory), the checks on a form | the check accepts exactly the texts of `Spec/Base64`: both directions by induction over groups of four digits and three bytes |  |
| C99 | P | A signature is good for one thing | `checkSignature`, all three ways | the signature is the last of five applications of HMAC; from equal results back to equal inputs step by step, else a collision at that step; the texts of requests and policies are told apart by a line feed | collisions stated for the concrete values of the two requests |
| C100 | P | A success is honest though the disk fails | system calls that fail (`Model/Fault`: `execF`, `runF`), all operations of the storage | a relation between a run with faults and the same run without (`Hon`): whenever a fault makes the two runs differ, the faulty one ends in an error; by induction over programs and loops; then C12, C16, C17, C24, C21 | Every system call may fail before, after or in the middle of its effect. Success means the system calls succeeded: losses of the page cache are the subject of C109. |
| C101 | N | Reading from a failing disk | the same, GetObject and HeadObject | what a successful run has seen (`OkF`), by symbolic execution with arbitrary faults; witness | Length, ETag and bytes are true or the transfer breaks off. False of the code: metadata may be missing from a success, and an existing object or bucket may be said to be missing (witness). |
| C102 | N | Copying and deleting many on a failing disk | the same, CopyObject and DeleteObjects | the same; induction over the list of keys; witness | Bytes and report are true. False of the code: metadata may silently not be copied, objects may silently not be deleted (witness). |
| C103 | P | Errors of the disk do not spread | the same, all operations, at every moment | the permissions of C03, C15 and C80 (`Safe`) with the effects of failing calls (`execF_frame`) | At every moment, for every fault pattern. |
| C104 | N | What a failed write leaves | the same, operations that write | invariants kept by every call whatever fails (`alwF`), as in C34 and C74; witness | Old content or a beginning of the new one. False of the code: after an error answer the old content may be lost (witness). |
| C105 | P | What has been acknowledged stays | lives of the server (`Spec/Life`): epochs of concurrent requests on a failing disk (`runParF`), each cut off at any moment, the next one started on the tree it left | rely/guarantee for programs whose calls may fail (`wpF`): the success of a program under interference and faults; an invariant over the epochs | Lives of the server: epochs of concurrent requests with failing system calls, each cut off at any moment, followed by a restart. Other requests of the epochs are on other objects (not on the same object, its bucket as a whole, or its metadata file). What is lost in a failure of the power because fsync is not called: C109. |
| C106 | P | Isolation also when the disk fails | the same | a simulation: the program among others, on a failing disk, keeps step with the program alone on a disk that fails at the same calls (`isolatedF`); C80 is the case without faults | Requests about objects and parts (AboutObjects), others Elsewhere as in C80; the folders the request would make exist. |
| C107 | P | What an HTTP client has been told stays true | lives of the server with HTTP requests (`Spec/WebLife`): epochs of concurrent requests, each the whole program of `Model/Response` (admission, dispatch, storage, response), on a failing disk | the program of a request is the program of the operation it asks for, wrapped; wrapping commutes with steps of a failing disk (`runParF_mapIdx`), so an epoch of requests is an epoch of operations; then C101, C105, C106 and the responses of C89 | lives of the server as HTTP clients see them: any requests at the same time and later (about other objects, or refused), failing system calls, deaths and restarts. Plain keys; for completion and copies the folder of the new object exists. The other requests each ask for an operation or are refused at once, which holds of every request for operations the server has that repeats no header or parameter (C89_meaning). |
| C108 | N | Last-Modified tells when an object was last written | the times the kernel keeps (`Model/Clock`): every step of a life of the server happens at an arbitrary time of the clock and stamps the files it writes and the directories it makes | a call leaves a file as it is or stamps it (`step_effect`); an invariant over steps and epochs; programs that cannot end without a certain call (`Makes`); then the responses of C87; witness | partial because the second granularity of Last-Modified makes the cache property false for writes within one second (C108_same_second_fails); kept and written for plain keys, changed and cache for all requests |
| C109 | N | A failure of the power harms only what was being written | failures of the power (`Spec/Power`): what the disk may hold after a run whose writes were not forced to the disk | invariants over all moments of a run (`upTo_inv`): frames, and that all files a run has had under a name are mixtures (`AllMixed`); witnesses | false for what has been acknowledged (witnesses for uploads, deletions and completions); the rest for plain keys; C109_bytes for uploads and deletions, not for copies and completions to the same object |
| C110 | N | Requests may be sent again | runs of the same request one after the other, after a run on a failing disk that is cut off at any moment, and at the same time (`runPar`) | each step of the second run is computed on the tree the first left (`Lemmas/Again`); what a cut-off attempt can have changed (`Attempted`) does not matter to the next (`put_retry`, `copy_retry`); requests that remove can only have thinned the tree (`Thinned`); for attempts at the same time the one that opened the file last writes all of it and the others can only help (`last_opener`, rely/guarantee); witnesses | false for CompleteMultipartUpload (three witnesses); copies proved for plain source keys, their retry for two different plain addresses; the in-flight theorems cover uploads of objects with plain keys and of parts |
| C111 | N | What can happen once is confirmed once | the same as C105; `Spec/Once`: which answers claim what | events that can happen only once (`Single`): at most one program of a run becomes guilty of it (`token_run`), and only a guilty one can end with the claim (`Innocent`); for the exact version a simulation of the race (`race`) | plain keys; exactly one for DeleteObject, at most one for DeleteObjects, for which 'exactly one' is false (witness) |
| C112 | N | Presigned URLs and signed forms work for whoever holds them | `checkPresignedUrl`, `PresignedUrl.fromQuery`, `checkPostForm`, `transformMultipart`; `Spec/Presign`: what a signer hands out | round trip: what the rules produce passes the checks; C66 for the form, C55 for the operation | False of the code for paths with an escape (C112_escaped_path_fails: the path is encoded twice, as in C38), for ${filename} in the key of a form (C112_filename_fails), and for forms whose first line is split between fragments (C52). Proved for everything else that the AWS rules produce, except presigned requests with a signed header that occurs twice or is called authorization or user-agent. |
| C113 | P | The server tells nothing about secrets | `checkSignature` with its three ways, `decodeChunked`; `Spec/Secret` | non-interference: the checks and the chunk decoder in lockstep under two providers; not modelled: the time the comparison takes | For the whole handling of a request, answer and effects (the program it becomes). Time is not modelled. |
| C114 | N | What a request asks for is honoured or refused, and nothing else counts | `handleResponse` as a function of the request: `admit`, `findHandler`, `extract`, `makeResponse`; `Spec/Unread` | congruence: two contexts that agree on what is looked up give the same program; a filtered sort is the sort of the filtered; witnesses for conditions, Content-MD5, paging and grouping parameters, versions, content types, metadata directives | Proved: unknown, unsigned headers make no difference to any request, and admitted requests are treated by their method, path, body and known parameters alone. False: parameters of the S3 API that the server does not know are ignored rather than refused (witnesses); an unknown header that is not ASCII makes the request fail. |
| C115 | N | Listing a bucket page by page shows every object once | the client that follows `IsTruncated`, `Spec/Paging`; the documents of C71 | C71 with the absence of `IsTruncated` | Proved: the paging client sees every object exactly once, in order. False: pages can be larger than max-keys (witness). Missing: keys, delimiters and encoding types with control characters, as in C71. |
| C116 | N | What is listed can be read, and what can be read is listed | the documents of C71, the responses to GET and HEAD, all on one tree | C71 with `get_stored`, and the converse `get_ok_stored` | Missing: keys that are other spellings of a place (the converse is false for them, witness C116_unlisted_fails), contents longer than an i64, metadata that cannot be sent, control characters in keys. |
| C117 | N | No client can hold up another, and a request costs what it asks for | runs of the server on a failing disk (`runParF`), the number of system calls of each program; whole-file reads, copies and the removal of a bucket are one access each in the model | `Within`: a bound on the calls of a program whatever they answer, composed along `bind`; witnesses for every number by induction | Bounds for all requests but listings and GETs without an end of the range, whose work grows with what is stored (no bound exists: C117_listing_fails). Whole-file reads, copies and removal of a bucket count as one access. The work for a ranged GET is not about the range only: C117_range_fails. |
| C118 | N | How a request is cut into packets makes no difference | the whole path from the pieces of a body to the file (`hyperCall`, run alone) | `copyBytes` in closed form; programs that do the same when run alone (`AloneEq`), composed along `bind` and `catch`; C47 and C52 for chunks and forms | False for forms whose first line is split (C118_form_fails, a signed form refused). Proved: for all other requests the response and the whole file tree after it are the same when the request is served alone (C118_packets_partial); requests that upload nothing even make the same accesses, so this holds beside other requests and faults (C118_accesses). |
| C119 | N | A signature authorizes one behaviour, once | acceptance and dispatch of two requests with one signature; hash functions arbitrary, collisions explicit | C99/C43 for what is signed, then C114: what is done depends on it only; witness for the replay | False in part: a copy sent later is served (C119_replay_fails). Proved: two accepted requests with the same signature are the same program of storage accesses and give the same response, if the headers acted upon and the digest of the payload are signed (for presigned URLs: if the bodies agree), or an explicit collision. |
| C120 | N | The store itself survives | lives of the server as C107, the directory `root` itself as part of the file tree | only rmdir and rmtree can remove a directory: what C03's permissions allow them is never the root, unless the key leads there; rmdir needs it empty; HTTP witness | The storage directory survives every life of the server in which no DELETE names a key that leads to it, whatever else is sent; any DELETE can only remove it at a moment when it is empty. The full statement is false: DELETE of the key ../ on an empty store removes the storage directory. |
| C121 | N | Where the store is kept makes no difference | two servers with two file trees side by side; an archive of a store as its relative names and contents | a relational simulation: the programs of a request at the two places make corresponding system calls (`Sim`, an inductive relation on programs, proved for every operation), corresponding calls keep the trees in agreement, also when they fail; a renaming of the files of one tree to those of the other, constructed from the equality of the archives; HTTP witness | Proved for any life of the server (concurrent requests, failing system calls, crashes) and for requests one by one: same responses and same content at both places. Missing: keys that start with a slash, for which it is false (C121_absolute_key_fails), and uploads to keys that lead to the storage directory itself. |
| C122 | P | The disk holds only what was asked for | lives of the server as C107; the requests that were sent, as operations | each system call adds a file or folder at no other path than its own (`execF_noNew`); C03's permissions name the calls of each operation; the paths of the permissions are the places of C96 (`place_of`, `partPlace_of`) | over every life of the server: concurrent requests, failing disk, crashes and restarts; C122_files and C122_folders: requests are those the model assigns an operation to, or refused ones; C122_outside: any requests (C124_files and C124_folders for any requests inside) |
| C123 | N | What is deleted leaves no trace on the disk | lives of the server as C107, restricted to uploads without metadata to one place, deletions of it and reading requests | an invariant of the epochs: the frame of C15 with one owned path, no folder there, the folders on the way exist already; then the exact effect of one more DELETE; HTTP witnesses | proved for uploads without metadata into an existing folder, with crashes, failures and concurrent requests at the place; false of the code for metadata files, parts of uploads that were not completed and new folders (witnesses) |
| C124 | P | Whatever is sent, only what its method and address name can change | lives of the server as C107, all requests whatsoever | every request is refused, panics or leads to one operation about its address (`any_wrap`: by cases over all handlers and their extraction, without assuming it well-formed); C03's permissions name the calls of each operation; each call changes nothing but at its own path | no hypothesis on the requests; a POST to a bucket counts as naming every key under it, because the key is in the form or document |
| C125 | P | A creation or deletion happens at one moment | one run of the server with any requests beside the one in question, system calls in any order | a program that has done nothing yet, or all of it (`Pre`, `Post`: predicates on programs, followed along the run by induction on its steps, `tracked`); proved for each operation from its system calls; the order is that of the calls that commit; HTTP witness | Creations of buckets, deletions of objects, the list of buckets and the questions whether a bucket is there take effect at one of their own system calls, whatever runs beside them (other requests unrestricted, their calls may fail); runs in which every PUT, POST and DELETE is of this kind are equivalent to a serial order that respects real time. C125_upload_fails shows that uploads are not of this kind, C126_delete_bucket_fails that deletions of buckets are not. The calls of the request itself do not fail in these theorems. |
| C126 | P | A bucket that is deleted entry by entry disturbs nobody else | runs of the server in which `remove_dir_all` takes any number of strides | a simulation: each stride is a DELETE of the same bucket that fails half way, so that the run is one of C107 with some requests repeated (`sweep_sim`, by induction on the strides; only a deletion of a bucket uses `remove_dir_all`, as its first and only call); the theorems of C107, C124 and C125 carry over; HTTP witness | C126_same and C126_life are the simulation for arbitrary requests; the others are its consequences for requests beside the deletion (C126_put, C126_isolation: other buckets are the ones deleted). C126_delete_bucket_fails shows that the deletion itself is not one moment. remove_dir_all is taken to report an error when the directory itself is gone before it ends. |
| C127 | P | Who has no key changes nothing, learns nothing and is not noticed | two runs of the server (as C107) that get different requests from clients without a key, with an authentication provider | a refused request is a program that has ended before its first step (C37); by induction on the steps of the run, programs that have ended do not change it (`idle_sim`); the errors of the check are client errors, by composition over its steps (`refused_4xx`) | Insider/Outsider are defined in Spec/Outsider by the SigV4 specification, not by the check of the model. An authentication provider with errors of its own is assumed to report errors (status 400 or more). How long the refusal takes is not modelled. |
| C128 | P | An upload in parts outlives the server | lives of the server as C107, cut into the runs before, with and after the completion | composition of C107_part, C107_complete and C107_get: the tree a run starts from is the one the runs before have left (`webLife_append`); attempts that were cut off may precede; HTTP witness with a crash in the middle of a part | The folder the object is in and the root directory are assumed to exist when the completion is sent; the part numbers are 1 to N, which is what complete_multipart_upload requires. |
| C129 | P | The pieces in which files are read, written and copied do not matter to others | runs of the server in which every long read, write and copy of C107 is a loop of short ones (a relation between programs, `Model/Pieces.lean`), with the removals of C126 | a refinement: each run of the program in pieces, alone, is a run of the program with the long calls on a disk on which its own calls may fail (`pieces_gets`, by induction on the relation with a simulation invariant for half-done loops); the isolation of C106 applies to the programs in pieces, because permissions are closed under taking calls apart; then C107 for the request alone; HTTP witnesses | For programs in any pieces (relation InPieces) and removals entry by entry. C129_etag_fails shows the limit: two requests about the same object, a GET beside a PUT. |
| C130 | P | A listing is right although directories change while they are read | runs as in C129 in which `read_dir` may answer with any list of entries that POSIX allows for the time between request and response (`Spec.Glimpse`: names that stay are found exactly once, names found were there) | an invariant of the program of the listing: whatever it is told that is explained by some moment, its answer is (`Sees`, by induction on the program in pieces; the walk by induction on the fuel, counting how often a path that stays is reached); the others by a simulation that leaves out the looks (`without_looks`) | Keys that are text and can be written in XML (C20 and C71 say what happens otherwise). Keys that stay are counted exactly once; C130_twice_fails shows that a key that goes and comes back can appear twice. C130_others: looks happen in listings only. |
| C131 | P | The server is exactly one abstract machine, whatever the spelling of the keys | the operations run alone on a tree; `Spec/Machine`: bytes at places, folders, parts of uploads, records of metadata per spelling | a refinement: `Embodies` relates the tree and the state of the machine and is kept by each operation (`C131_step`); answers agree in related states (`C131_answer`); induction over the history | Exact: the machine has the odd cases of the server, ranges and uploads in parts included. Left out of the machine: the answers of listings (C20, C101). Requests run one after the other on a disk without failures. Upload ids are no paths. Needs that an empty text is not JSON and that metadata survive being written and read (C19/C64). |
| C132 | P | Over HTTP the server cannot be told from the abstract machine | requests and responses over HTTP as in C89, the machine of C131; `Spec/MachineClient`: how a response shows an answer | C131 for the tree after the history, the meaning of each request (C89_meaning) and the rendering of each answer (C41, C64, C90, C91) | Hypotheses: the address set is Spelled (every spelling leads to a place inside its bucket, no place is a folder of another); metadata can be sent in headers; keys and upload ids that a response document repeats can be written in XML; the MD5 of the server satisfies the ETag hypothesis (realExt_clean). |
| C133 | P | Listings show exactly what the abstract machine holds | listings as in C20 and C21, the machine of C131; `Spec/MachineListing`: what the machine lists | an invariant besides C131: no bucket contains a file that is not the place of an address (each operation makes only files it may write), so that C20, C21 and C71 speak about the machine | Hypotheses: Spelled address set; names of places are valid UTF-8 (and, over HTTP, can be written in XML); contents and number of directory entries fit into an i64; the fuel of the listing loop of the model exceeds the number of entries. |
| C134 | P | Clients served at the same time see the abstract machine | requests in pieces as in C129, the machine of C131 and the client of C132; `Spec/MachineRounds`: rounds, independent requests | each request of a round leaves what it would leave alone (C129) and touches nothing the others are about; the machine does the same, because what it does to an address depends on that address only; then induction over the rounds | Rounds of requests at the same time are, for the storage and for every client that is not disturbed, the machine of C131 doing them one after the other. Keys in rounds at the same time are plain. Copies and completed uploads go into folders that exist (C80_folders_needed shows why folders matter), other uploads anywhere (C135). |
| C135 | P | Uploads at the same time into folders that are not there yet | requests in pieces as in C129; `Spec/NewFolder`: folders that are there or can be made | the calls that make the folders leave a folder that others never remove, so after them the storage is one in which the folders exist and C129 applies; the request alone, started in the storage as it is then, and in the storage as it was at first, differ in the folders only | No folder needs to exist. The other requests are about other objects (C129's Elsewhere), and keys are plain. |
| C136 | P | What is certain after requests have broken off | the machine of C131 and rounds of C134, any of which may be cut short; `Spec/Doubt`: what is in doubt, and what requests make of it | per place: if every request about it was answered and spared, C134 for these requests alone; if no request is about it, the frame lemmas of the pieces; the machine is monotone in the doubt; histories by induction | Keys are plain (as in C134) and requests served at the same time are independent; listings are in C137. |
| C137 | P | One history explains everything that is seen after a break, listings included | the machine, the rounds and the doubt of C136, with the listings of C133 | the state that embodies the file tree after C136 is changed at places outside the address set, where it says nothing, so that it holds only places of addresses; rounds keep the tree closed; then C133 for this state; without broken-off requests the doubt stays empty | Hypotheses as in C136 and C133: plain keys, requests served at the same time are independent; names of places are valid UTF-8 and can be written in XML; contents and number of directory entries fit into an i64; the fuel of the listing loop of the model exceeds the number of entries. |
| C138 | P | Folder keys and objects together | `Spec/MachineFolders`: folder keys in the machine of C131 (`FolderStep`), histories that mix both (`Leads`), file trees that show all folders (`Tree`) | frame lemma for the calls of the two requests, run of `create_dir_all` on a way without files, a directory has no entries iff the machine holds nothing below; the requests of C131 leave other directories alone; induction over the history | folder keys are plain (c1/../cn/), their names fit into file names, and no address of the set is the folder or on the way to it; requests one after another on a disk that works |
| C139 | P | A folder is not an object | `Spec/FolderUse`: the answers to folder keys used as objects (`FolderAnswer`, `RemovesEach`), histories with them (`Runs`); whether the path library keeps trailing slashes is a parameter, copies onto folder keys without a folder are covered only when it does | runs of the calls on a tree that shows the machine (C138); a folder key never has a record (invariant); induction over the list of keys and over the history; rendering by C132 | Extends C138 to every request that names a folder key where an object is expected. For releases of path-dedot that do not keep trailing slashes, copies onto folder keys without a folder are not covered, and completions there are described by C139_stripped only. |
| C140 | P | Folders that several clients make at once | `Spec/FoldersAtOnce`: PUTs of folders (`FolderPut`), the state with further folders (`Further`), runs of the server with any interleaving and faults (`Epoch` of C105) | frames of the calls (only directories on the way are made), rely-guarantee: directories stay directories, so `create_dir_all` can rely on what it found or made; induction over the depth of the path and over the list sent again | PUTs of folder keys at the same time, with faults, cut off; each answered as alone; sending again is enough; DELETE cut off. Only PUTs run at the same time here; a DELETE of a folder beside them is not covered. |
| C141 | P | Folders made and removed beside uploads | `Spec/FoldersBeside`: requests that make or remove folders (`OnFolder`), requests beside an object (`Beside`), runs of the server with any interleaving and faults (`Epoch`, `life` of C105) | rely-guarantee with a relation that only lets the files of the object and its metadata stay (`FilesStay`): `remove_dir` removes no file and no directory that holds one; the weakest preconditions of PUT, CopyObject and CompleteMultipartUpload under it. The negation is a run of the model on a named tree | Objects beside folder requests stay (kept); successes of uploads, copies and completions are real (put, read, copy, complete); the limit named at the end of the statement is proved by a run (upload_fails). |
| C142 | P | Folders do not disturb work on objects that are there | `Spec/Undisturbed`: a request and its objects are there (`Standing`), requests that make or remove folders or are about other objects (`Aside`); runs with any interleaving and faults (`Epoch`), HTTP requests (`WebEpoch`) | isolation with an invariant: while the files of the objects stand, so do their directories, and a folder request changes nothing that the request can see (`isolatedJ`, `Stands`, `folder_effect`). The HTTP versions through the simulation of C107 | Stated for requests other than deletions, which are the subject of C143. For objects that are not there yet the statement on answers is false (C141_upload_fails); what an answer of success then means is C142_put, C142_copy and C142_complete. |
| C143 | P | Deletions beside folders | `Spec/FoldersBeside` (`Beside`, `OnFolder`), runs with any interleaving and faults (`Epoch`, `life`), HTTP requests (`WebEpoch`) | rely-guarantee with the relation that the contents of the named objects stay; weakest preconditions of DeleteObject and DeleteObjects, with all outcomes when the own calls do not fail (`epoch_wp_quiet`), for successes when anything may fail | For plain keys. That DeleteObjects reports all is stated for objects that are there; for keys that are not there a folder of their name makes the request answer InternalError (see C26). |
| C144 | P | Making folders disturbs nobody | `Spec/Making` (`Growth`, `Alongside`, `MakesClear`), runs with any interleaving and faults (`Epoch`, `life`), HTTP requests (`WebEpoch`) | rely-guarantee: a request that makes a folder only creates directories on the way to it, which is inside what `put_room` (C32) and `isolatedF` (C106) allow others; content by C141, HTTP by the simulation of C116 | Whether a folder of the name of the object, or below it, is made at the same time is excluded; an example shows that the upload then fails, as it must. Folder removals are C141 and C142. |
| C145 | P | A folder that is made is there | `Spec/FolderMade` (`Lets`, `LeavesFolder`, `FolderRoom`), runs with any interleaving and faults (`Epoch`, `life`), HTTP requests (`WebEpoch`) | rely-guarantee on `create_dir_all`: the others only add directories on the way (`Grow`), or at least keep the directory; persistence as an invariant of every system call of a request that does not remove the folder; HTTP by the simulation of C116 | For requests with plain addresses and folders with plain names; the other requests are any that do not put a file in the way or delete the folder. Any interleaving, any faults. |
| C146 | P | A client may send the same request again and again | `Spec/Retry` (`Refills`, `Settles`, `Attempts`), HTTP runs with cuts and faults (`WebEpoch`, `webLife`) | a run with one request beside readers leaves a moment of that request on some disk (`beside_runF`, `attempt_moment`); induction on the attempts with the single-retry theorems of C110 and `folder_retry`; the response depends on the tree only through the answer (`responded_asks`); the changing answers of bucket requests by witness | Objects, folders, parts and copies keep response and effect; deletions and bucket creations keep the effect, and C146_answer_fails shows that their answers change. During the attempts others may only read, begin uploads, or be refused. Several objects are deleted by different plain keys that name no folders. |

## Axioms of the property theorems

* none: `C58_code_round_trip`, `C58_code_strings_distinct`, `C58_success_status_witness`
* propext: `C62_copy_source_unique`, `C65_carriage_return_witness`, `C65_control_witness`, `C65_no_markup`, `C65_xml_text_partial`
* propext, Classical.choice, Quot.sound: `C01_address_unique`, `C01_path_addressing`, `C01_refusal_reason`, `C02_bucket_name_rule`, `C03_root_confinement`, `C03_root_confinement_crash`, `C04_bucket_isolation_fails`, `C04_bucket_isolation_partial`, `C05_distinct_storage_fails`, `C05_distinct_storage_partial`, `C06_metadata_storage`, `C08_ranged_get_fails`, `C08_ranged_get_partial`, `C09_content_length_fails`, `C09_content_length_partial`, `C100_complete`, `C100_delete`, `C100_listing`, `C100_part`, `C100_put`, `C100_success`, `C101_read_fails`, `C101_read_partial`, `C102_copy_partial`, `C102_delete_objects_partial`, `C102_skip_fails`, `C103_others`, `C103_reads`, `C103_root`, `C104_complete`, `C104_copy`, `C104_delete`, `C104_old_lost_fails`, `C104_part`, `C104_put_partial`, `C105_complete`, `C105_copy`, `C105_delete`, `C105_kept`, `C105_part`, `C105_put`, `C105_read`, `C106_isolation`, `C106_sound`, `C107_complete`, `C107_copy`, `C107_delete`, `C107_delete_get`, `C107_get`, `C107_isolation`, `C107_part`, `C107_put`, `C107_put_get`, `C108_bucket`, `C108_bucket_kept`, `C108_cache_partial`, `C108_changed`, `C108_get`, `C108_head`, `C108_kept`, `C108_same_second_fails`, `C108_written`, `C109_acknowledged_fails`, `C109_bytes`, `C109_complete_fails`, `C109_deleted`, `C109_root`, `C109_untouched`, `C10_unsatisfiable_ranges_fails`, `C10_unsatisfiable_ranges_partial`, `C110_complete_fails`, `C110_complete_in_flight_fails`, `C110_complete_retry_fails`, `C110_copy_partial`, `C110_copy_retry`, `C110_create_bucket`, `C110_create_bucket_retry`, `C110_delete`, `C110_delete_bucket`, `C110_delete_bucket_retry`, `C110_delete_many_partial`, `C110_delete_many_retry_partial`, `C110_delete_retry`, `C110_part`, `C110_part_in_flight`, `C110_part_retry`, `C110_put`, `C110_put_in_flight`, `C110_put_in_flight_meta`, `C110_put_retry`, `C111_create_once`, `C111_delete_once`, `C111_nobody_told_fails`, `C111_one_wins`, `C111_use_once`, `C112_escaped_path_fails`, `C112_form_accepted_partial`, `C112_form_served_partial`, `C112_presigned_accepted_partial`, `C112_presigned_served_partial`, `C113_other_users`, `C113_secrets`, `C114_checksum_fails`, `C114_condition_fails`, `C114_content_type_fails`, `C114_directive_fails`, `C114_essentials_partial`, `C114_header_fails`, `C114_listing_fails`, `C114_version_fails`, `C115_page_size_fails`, `C115_pages_partial`, `C116_listed_partial`, `C116_unlisted_fails`, `C117_effort_partial`, `C117_listing_fails`, `C117_range_fails`, `C117_range_reads_all`, `C117_refused`, `C118_accesses`, `C118_form_fails`, `C118_packets_partial`, `C119_one_behaviour_partial`, `C119_presigned_partial`, `C119_replay_fails`, `C11_stream_content`, `C120_only_empty`, `C120_root_partial`, `C120_root_removed_fails`, `C121_absolute_key_fails`, `C121_moved_partial`, `C121_one_partial`, `C122_files`, `C122_folders`, `C122_outside`, `C123_folder_fails`, `C123_litter_fails`, `C123_undone_partial`, `C124_files`, `C124_folders`, `C124_other_methods`, `C125_one_moment`, `C125_serial`, `C125_upload_fails`, `C126_delete_bucket_fails`, `C126_files`, `C126_folders`, `C126_isolation`, `C126_life`, `C126_one_moment`, `C126_put`, `C126_same`, `C127_life`, `C127_refused`, `C127_refused_among`, `C127_unnoticed`, `C128_multipart`, `C128_part`, `C128_read`, `C129_alone`, `C129_complete`, `C129_copy`, `C129_etag_fails`, `C129_files`, `C129_folders`, `C129_get`, `C129_isolation`, `C129_kept`, `C129_put`, `C129_sound`, `C12_read_your_write_fails`, `C12_read_your_write_partial`, `C130_buckets`, `C130_listing`, `C130_others`, `C130_twice_fails`, `C131_answer`, `C131_from_empty`, `C131_machine`, `C131_step`, `C132_client`, `C132_from_empty`, `C133_buckets`, `C133_client`, `C133_listing`, `C134_client`, `C134_history`, `C134_response`, `C134_round`, `C135_put`, `C135_upload`, `C136_client`, `C136_cut`, `C136_history`, `C137_certain`, `C137_finished`, `C137_one_state`, `C138_client`, `C138_history`, `C138_listing`, `C138_step`, `C139_client`, `C139_determined`, `C139_history`, `C139_onto`, `C139_safe`, `C139_step`, `C139_stripped`, `C13_etag_fails`, `C13_etag_partial`, `C140_again`, `C140_all`, `C140_alone`, `C140_delete`, `C140_moment`, `C141_complete`, `C141_copy`, `C141_kept`, `C141_put`, `C141_read`, `C141_upload_fails`, `C142_complete`, `C142_copy`, `C142_isolation`, `C142_put`, `C142_sound`, `C142_web`, `C143_delete`, `C143_delete_objects`, `C143_gone`, `C143_reported`, `C143_web`, `C143_web_gone`, `C144_isolation`, `C144_put`, `C144_sound`, `C144_web`, `C144_web_put`, `C145_made`, `C145_stays`, `C145_there`, `C145_web_made`, `C145_web_stays`, `C145_web_there`, `C146_same_answer`, `C146_same_effect`, `C14_copy_into_new_folder_fails`, `C14_from_empty_partial`, `C14_map_refinement_fails`, `C14_map_refinement_partial`, `C15_frame_fails`, `C15_frame_partial`, `C16_deleted_gone_fails`, `C16_deleted_gone_partial`, `C17_delete_idempotent_fails`, `C17_delete_idempotent_partial`, `C18_copy_fails`, `C18_copy_partial`, `C19_metadata_fails`, `C19_metadata_partial`, `C20_listing_fails`, `C20_listing_partial`, `C21_list_buckets`, `C22_create_bucket`, `C23_delete_bucket_fails`, `C23_delete_bucket_partial`, `C24_multipart_fails`, `C24_multipart_partial`, `C24_multipart_partial`, `C25_refused_complete_fails`, `C25_refused_complete_partial`, `C26_delete_objects_fails`, `C26_delete_objects_fails`, `C26_delete_objects_partial`, `C27_head_get_fails`, `C27_head_get_partial`, `C28_read_ops_pure`, `C29_failed_put_fails`, `C29_failed_put_partial`, `C30_missing_bucket_fails`, `C30_missing_bucket_partial`, `C31_create_race`, `C31_create_race_winner`, `C32_disjoint_puts`, `C32_disjoint_puts_succeed`, `C33_torn_reads_fails`, `C33_torn_reads_partial`, `C34_crash_in_put_fails`, `C34_crash_in_put_partial`, `C35_crash_in_complete`, `C37_only_signed`, `C37_step_signed`, `C38_escaped_path_fails`, `C38_signed_accepted_partial`, `C39_canonical_request`, `C39_presigned_request`, `C40_signature_protects`, `C41_form_not_signed_up`, `C41_unknown_key`, `C43_presigned_protects_partial`, `C44_signed_headers_partial`, `C45_policy_signed_partial`, `C48_chunked_put`, `C50_put_refused_partial`, `C52_form_fragmentation_partial`, `C55_not_supported`, `C55_operation`, `C55_operation_partial`, `C55_subresource_fails`, `C56_panic_fails`, `C56_panic_partial`, `C57_part_copy_fails`, `C57_part_partial`, `C60_amz_date_round_trip`, `C61_authorization_grammar`, `C61_authorization_unique`, `C61_scope_date`, `C62_copy_source`, `C63_access_key_store`, `C63_unknown_iff`, `C64_form_metadata_fails`, `C64_header_metadata_partial`, `C64_metadata_partial`, `C66_form_round_trip`, `C68_folder_created`, `C70_same_object_fails`, `C70_same_object_partial`, `C71_listing_fails`, `C71_listing_partial`, `C71_listing_partial`, `C71_listing_v2_partial`, `C71_listing_v2_partial`, `C72_error_document`, `C72_error_documents`, `C73_delete_objects_partial`, `C74_complete_partial`, `C74_create_fails`, `C74_create_partial`, `C75_head_etag_fails`, `C75_put_get_partial`, `C75_upload_part`, `C76_list_buckets`, `C76_list_buckets`, `C77_accepted_partial`, `C77_chunks_decoded`, `C77_streaming_put`, `C78_chunks_protected`, `C79_form_stored`, `C79_put_stored`, `C80_folders_needed`, `C80_isolation`, `C81_parallel_parts`, `C82_get_during_delete_fails`, `C82_get_during_delete_partial`, `C83_bad_address`, `C83_bad_header`, `C83_fault_or_address`, `C84_malformed_part`, `C84_part_header`, `C85_metadata_file`, `C85_metadata_read`, `C85_reader`, `C85_round_trip`, `C86_folder_listed_fails`, `C86_listing_among_others_partial`, `C86_listing_during_delete_fails`, `C86_listing_not_a_moment`, `C87_file_time`, `C87_get`, `C87_head`, `C87_http_date_unique`, `C87_last_modified`, `C87_rfc3339_unique`, `C88_copy_partial`, `C88_copy_time_fails`, `C89_client_fails`, `C89_client_partial`, `C89_from_empty_partial`, `C89_meaning`, `C90_delete_document_partial`, `C90_quiet_fails`, `C90_version_fails`, `C91_complete_document_partial`, `C91_etag_fails`, `C92_location_fails`, `C92_location_partial`, `C93_upload_id_fails`, `C94_answered`, `C95_conversation`, `C95_finished`, `C95_map_partial`, `C96_alias`, `C96_apart`, `C96_copy`, `C96_place`, `C96_same`, `C97_keys`, `C98_policy`, `C98_refused`, `C99_header`, `C99_one_meaning`, `beforeFirst_of_occurs`
* propext, Quot.sound: `C07_range_grammar`, `C103_errors`, `C112_filename_fails`, `C114_header_partial`, `C138_determined`, `C146_answer_fails`, `C36_access_denied`, `C36_form_invalid`, `C36_no_anonymous`, `C41_header_not_signed_up`, `C41_presigned_not_signed_up`, `C42_credentials_refused`, `C42_form_not_supported`, `C42_header_not_supported`, `C42_presigned_not_supported`, `C42_unsigned_served`, `C43_expiry_fails`, `C44_unsigned_header_fails`, `C45_policy_fails`, `C46_query_order`, `C47_fragmentation`, `C48_round_trip`, `C49_authentic`, `C50_truncation_fails`, `C50_truncation_partial`, `C51_file_end`, `C52_form_fragmentation_fails`, `C53_field_lookup`, `C54_header_lookup`, `C54_query_lookup`, `C54_signed_headers`, `C58_error_status_partial`, `C58_parse_exact`, `C59_decode_encode`, `C59_encode_alphabet`, `C59_encode_injective`, `C59_encode_unreserved`, `C59_url_decode_encode`, `C60_amz_date_grammar`, `C67_operation_errors`, `C68_folder_content`, `C69_declaration_partial`, `C69_declared_checksum_fails`, `C69_refused_partial`, `C79_body_kept`, `C85_writer`, `C97_open`, `C97_start`
