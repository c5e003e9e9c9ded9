{"id": "C01", "title": "Request path addressing is exact", "statement": "A decoded request path addresses the service root iff it is '/', a bucket iff it is '/b' or '/b/' with b a legal bucket name, an object (b,k) iff it is '/b/k' with b legal, k non-empty and at most 1024 bytes; every other path is rejected, and two different (bucket,key) addresses are never produced by the same path.", "quantifier": "every byte string offered as a request path", "why_tests_cant": "the set of paths is infinite; tests only sample a handful of spellings", "anchors": ["src/path.rs: S3Path::try_from_path, check_key", "src/service.rs: extract_s3_path"]}
{"id": "C02", "title": "Bucket naming rule is exact", "statement": "A bucket name is accepted iff it has 3..63 bytes, all of them lower case letters, digits, '.' or '-', starts and ends with a letter or digit, does not start with 'xn--' and is not an IPv4 address in dotted decimal notation.", "quantifier": "every byte string", "why_tests_cant": "boundary combinations (length, first/last byte, IPv4 look-alikes) are infinitely many", "anchors": ["src/path.rs: S3Path::check_bucket_name"]}
{"id": "C03", "title": "No request touches files outside the storage root", "statement": "Whatever bucket, key, copy source, upload id or part number a request names, the file-system storage never creates, changes, deletes or reads a file outside its root directory.", "quantifier": "every request, every bucket/key string and every initial file tree", "why_tests_cant": "path traversal strings are unbounded; a test tries only known attack strings", "anchors": ["src/storages/fs.rs: get_object_path, get_bucket_path, get_metadata_path, FileSystem impl S3Storage"]}
{"id": "C04", "title": "An object request stays inside its bucket", "statement": "A request that names bucket b only reads or changes files below the directory of b (plus the hidden metadata file of that object).", "quantifier": "every bucket and key string", "why_tests_cant": "needs all spellings of keys ('..', absolute keys, '//' ...)", "anchors": ["src/storages/fs.rs: get_object_path"]}
{"id": "C05", "title": "Different objects never share storage", "statement": "Two different (bucket,key) addresses are stored in two different files.", "quantifier": "every pair of (bucket,key) addresses", "why_tests_cant": "quantifies over pairs of unbounded strings", "anchors": ["src/storages/fs.rs: get_object_path"]}
{"id": "C06", "title": "User metadata of different objects never share storage", "statement": "The metadata of two different (bucket,key) addresses live in two different files, and no metadata file coincides with a bucket directory or an uploaded part.", "quantifier": "every pair of (bucket,key) addresses, every upload id and part number", "why_tests_cant": "quantifies over pairs of unbounded strings", "anchors": ["src/storages/fs.rs: get_metadata_path, upload_part"]}
{"id": "C07", "title": "Range header grammar is exact", "statement": "A Range header is accepted iff it is 'bytes=F-', 'bytes=F-L' with F<=L, or 'bytes=-N' with decimal numbers below 2^64, and the parsed numbers are the numbers written.", "quantifier": "every header string", "why_tests_cant": "infinitely many strings, number overflow boundary", "anchors": ["src/headers/range.rs: Range::from_header_str"]}
{"id": "C08", "title": "Ranged GET returns exactly the requested bytes", "statement": "For an object of length n, GET with 'bytes=F-L', 'bytes=F-' or 'bytes=-N' returns exactly the bytes the HTTP range denotes (F..min(L,n-1), F..n-1, last N bytes), whatever read sizes the file system returns.", "quantifier": "every object content, every range, every schedule of short reads", "why_tests_cant": "three unbounded inputs plus read schedule", "anchors": ["src/storages/fs.rs: get_object", "src/data_structures/bytes_stream.rs: BytesStream"]}
{"id": "C09", "title": "Content-Length announces the body that is sent", "statement": "The Content-Length of a successful GET equals the number of body bytes delivered.", "quantifier": "every object content and every Range header", "why_tests_cant": "depends on relation between unbounded numbers", "anchors": ["src/storages/fs.rs: get_object", "src/ops/get_object.rs"]}
{"id": "C10", "title": "Unsatisfiable ranges are refused", "statement": "GET with a first byte position at or after the end of the object, is answered InvalidRange (416) and changes nothing; ranges that select at least one byte are never refused.", "quantifier": "every object content and range", "why_tests_cant": "boundary at unbounded n", "anchors": ["src/storages/fs.rs: get_object", "src/errors.rs"]}
{"id": "C11", "title": "Body streaming is independent of read sizes", "statement": "The body stream of a file delivers exactly the first `limit` bytes from the seek position (or the whole rest when shorter), in order, no byte twice, no piece larger than the buffer, for every pattern of short reads.", "quantifier": "every file content, limit, buffer size and schedule of short reads", "why_tests_cant": "schedules of short reads cannot be forced by a test", "anchors": ["src/data_structures/bytes_stream.rs: poll_next"]}
{"id": "C12", "title": "Read your write", "statement": "After a successful PutObject(b,k,data), GetObject(b,k) returns exactly data with its length, however the upload body was fragmented.", "quantifier": "every file tree, bucket, key, body and fragmentation", "why_tests_cant": "unbounded bodies, fragmentations and prior states", "anchors": ["src/storages/fs.rs: put_object, get_object, copy_bytes"]}
{"id": "C13", "title": "ETag is the MD5 of the content", "statement": "The ETag returned by PutObject, UploadPart and CompleteMultipartUpload, and by later GetObject and CopyObject, is the quoted hex MD5 of the object's bytes, so equal contents give equal ETags across operations.", "quantifier": "every content and fragmentation", "why_tests_cant": "unbounded contents; incremental hashing per fragment", "anchors": ["src/storages/fs.rs: put_object, get_object, upload_part, complete_multipart_upload, copy_object, get_md5_sum"]}
{"id": "C14", "title": "The store behaves as a map", "statement": "For every history of PutObject, GetObject, DeleteObject, HeadObject and CopyObject on plain keys, every answer equals that of an abstract map from (bucket,key) to bytes.", "quantifier": "every finite history over any prefix-free set of plain keys", "why_tests_cant": "histories are unbounded", "anchors": ["src/storages/fs.rs: FileSystem impl S3Storage"]}
{"id": "C15", "title": "Writing one object leaves every other object alone", "statement": "PutObject, DeleteObject, CopyObject, CompleteMultipartUpload on one address change the content of no other object.", "quantifier": "every state, address, other address", "why_tests_cant": "needs all pairs of addresses and states", "anchors": ["src/storages/fs.rs: put_object, delete_object, copy_object, complete_multipart_upload"]}
{"id": "C16", "title": "Deleted objects are gone", "statement": "After a successful DeleteObject(b,k), GetObject and HeadObject of (b,k) answer NoSuchKey (404) and listings no longer show k.", "quantifier": "every state and address", "why_tests_cant": "unbounded states", "anchors": ["src/storages/fs.rs: delete_object, get_object, head_object"]}
{"id": "C17", "title": "DeleteObject is idempotent", "statement": "Deleting an object that does not exist succeeds and changes nothing (as in S3).", "quantifier": "every state and absent address", "why_tests_cant": "unbounded states", "anchors": ["src/storages/fs.rs: delete_object"]}
{"id": "C18", "title": "CopyObject copies and keeps its source", "statement": "After a successful CopyObject the destination has the bytes the source had before, and the source still has them.", "quantifier": "every state and pair of addresses, including equal ones", "why_tests_cant": "unbounded states and pairs", "anchors": ["src/storages/fs.rs: copy_object"]}
{"id": "C19", "title": "GET returns the metadata of the last PUT", "statement": "GetObject and HeadObject return exactly the user metadata given by the most recent PutObject of that address (none if none was given).", "quantifier": "every history", "why_tests_cant": "needs histories: stale metadata appears only after overwrite/delete sequences", "anchors": ["src/storages/fs.rs: save_metadata, load_metadata, put_object, delete_object"]}
{"id": "C20", "title": "Listing is complete, exact, sorted and duplicate-free", "statement": "ListObjects and ListObjectsV2 return precisely the stored objects of the bucket whose key starts with the prefix, each once, with the right size, in ascending byte order; both versions agree and KeyCount is the number of entries.", "quantifier": "every file tree, bucket and prefix", "why_tests_cant": "unbounded trees", "anchors": ["src/storages/fs.rs: list_objects, list_objects_v2"]}
{"id": "C21", "title": "ListBuckets is exact", "statement": "ListBuckets returns exactly the directories of the root that have a legal bucket name, each once.", "quantifier": "every file tree", "why_tests_cant": "unbounded trees", "anchors": ["src/storages/fs.rs: list_buckets"]}
{"id": "C22", "title": "CreateBucket creates once", "statement": "CreateBucket succeeds iff no entry of that name exists; otherwise BucketAlreadyExists and nothing changes; after success HeadBucket succeeds and the listing is empty.", "quantifier": "every state and legal bucket name", "why_tests_cant": "unbounded states", "anchors": ["src/storages/fs.rs: create_bucket, head_bucket"]}
{"id": "C23", "title": "DeleteBucket removes the bucket and nothing else", "statement": "DeleteBucket of an existing bucket removes the bucket with everything in it; every path outside it is untouched; a bucket that still holds objects is refused.", "quantifier": "every state and bucket", "why_tests_cant": "unbounded states", "anchors": ["src/storages/fs.rs: delete_bucket"]}
{"id": "C24", "title": "Multipart upload assembles parts in order", "statement": "If parts 1..n were uploaded under an upload id in any order and with any fragmentation, CompleteMultipartUpload listing 1..n stores exactly the concatenation of the parts in part-number order, and removes the parts.", "quantifier": "every number of parts, contents, upload order, fragmentation and prior state", "why_tests_cant": "unbounded number of parts and orders", "anchors": ["src/storages/fs.rs: upload_part, complete_multipart_upload"]}
{"id": "C25", "title": "A refused CompleteMultipartUpload changes nothing", "statement": "When CompleteMultipartUpload answers an error (wrong order, missing part) the object and the uploaded parts are as before.", "quantifier": "every state and part list", "why_tests_cant": "failure position is unbounded", "anchors": ["src/storages/fs.rs: complete_multipart_upload"]}
{"id": "C26", "title": "DeleteObjects deletes exactly the named existing objects", "statement": "DeleteObjects removes exactly the listed keys that exist, reports exactly those as deleted and leaves everything else alone.", "quantifier": "every state and key list", "why_tests_cant": "unbounded lists, duplicates", "anchors": ["src/storages/fs.rs: delete_objects"]}
{"id": "C27", "title": "HEAD agrees with GET", "statement": "HeadObject succeeds iff GetObject succeeds, with the same length and metadata.", "quantifier": "every state and address", "why_tests_cant": "unbounded states", "anchors": ["src/storages/fs.rs: head_object, get_object"]}
{"id": "C28", "title": "Read operations do not change the store", "statement": "GetObject, HeadObject, HeadBucket, GetBucketLocation, ListBuckets, ListObjects(V2) and CreateMultipartUpload never change any file, whatever they answer.", "quantifier": "every state and input", "why_tests_cant": "all inputs and states", "anchors": ["src/storages/fs.rs: get_object, head_object, head_bucket, get_bucket_location, list_buckets, list_objects, list_objects_v2, create_multipart_upload"]}
{"id": "C29", "title": "A failed PutObject leaves the old object", "statement": "If PutObject answers an error, the object is what it was before the request.", "quantifier": "every state, body, failure position", "why_tests_cant": "failure position in the stream is unbounded", "anchors": ["src/storages/fs.rs: put_object", "src/streams/aws_chunked_stream.rs"]}
{"id": "C30", "title": "PutObject needs an existing bucket", "statement": "PutObject into a bucket that does not exist is refused (NoSuchBucket) and creates nothing.", "quantifier": "every state and address", "why_tests_cant": "all states", "anchors": ["src/storages/fs.rs: put_object"]}
{"id": "C31", "title": "Concurrent CreateBucket has one winner", "statement": "When any number of clients create the same bucket concurrently, at most one is told success, in every interleaving; exactly one when the bucket was absent.", "quantifier": "every number of clients and every schedule of their file-system steps", "why_tests_cant": "schedules cannot be enumerated by tests", "anchors": ["src/storages/fs.rs: create_bucket"]}
{"id": "C32", "title": "Concurrent requests on different objects do not interfere", "statement": "In every interleaving of PutObject requests on distinct plain keys each key ends with its own body.", "quantifier": "every number of clients, bodies, fragmentations and schedules", "why_tests_cant": "schedules", "anchors": ["src/storages/fs.rs: put_object"]}
{"id": "C33", "title": "Readers see whole objects", "statement": "A GetObject concurrent with a PutObject of the same address delivers either the old or the new content, and an ETag that matches it.", "quantifier": "every schedule", "why_tests_cant": "needs a specific interleaving", "anchors": ["src/storages/fs.rs: put_object, get_object"]}
{"id": "C34", "title": "Crash during PutObject", "statement": "If the server stops at any point of PutObject, the object afterwards has either its old or its new content, and every other object is intact.", "quantifier": "every crash point, body and state", "why_tests_cant": "crash points cannot be covered by tests", "anchors": ["src/storages/fs.rs: put_object"]}
{"id": "C35", "title": "Crash during CompleteMultipartUpload loses no part", "statement": "At every crash point of CompleteMultipartUpload the bytes of every part are still in its part file or already in the object.", "quantifier": "every crash point, number of parts and contents", "why_tests_cant": "crash points", "anchors": ["src/storages/fs.rs: complete_multipart_upload"]}
{"id": "C36", "title": "No anonymous access when authentication is configured", "statement": "With an authentication provider, a request without any signature is answered with an error and performs no file-system step: AccessDenied (403) when it is well formed and not a form upload, InvalidRequest when it is a form upload.", "quantifier": "every request", "why_tests_cant": "all methods, paths, headers and bodies", "anchors": ["src/service.rs: check_signature, check_header_auth"]}
{"id": "C37", "title": "Only correctly signed requests reach the storage", "statement": "With an authentication provider, a request that causes any file-system step carries an access key known to the provider and a signature equal to the SigV4 signature computed with that key's secret over the request.", "quantifier": "every request (header, presigned and POST-form authentication)", "why_tests_cant": "all requests", "anchors": ["src/service.rs: check_signature, check_header_auth, check_presigned_url, check_post_signature"]}
{"id": "C38", "title": "A request signed by the AWS rules is accepted", "statement": "With an authentication provider, a request whose Authorization header carries the SigV4 signature prescribed by AWS (URI-encoded once) passes the signature check.", "quantifier": "every method, path, query, headers, body, secret", "why_tests_cant": "all requests", "anchors": ["src/signature_v4.rs: create_canonical_request", "src/service.rs: check_header_auth"]}
{"id": "C39", "title": "The canonical request determines the request", "statement": "Two requests with the same canonical request string agree on method, path, multiset of query parameters, signed header names and (trimmed) values and payload hash.", "quantifier": "every pair of requests", "why_tests_cant": "pairs of unbounded strings; ambiguity would be a forgery", "anchors": ["src/signature_v4.rs: create_canonical_request, uri_encode"]}
{"id": "C40", "title": "The signature protects the body", "statement": "If two accepted requests carry the same signature, key, date and region but different signed bodies, methods, paths, queries or signed headers, then an explicit collision of SHA-256 or HMAC-SHA256 among the texts signed for these two requests is obtained.", "quantifier": "every pair of requests", "why_tests_cant": "pairs of unbounded inputs", "anchors": ["src/signature_v4.rs: create_canonical_request, create_string_to_sign, calculate_signature", "src/service.rs: check_header_auth"]}
{"id": "C41", "title": "Unknown access keys are refused", "statement": "A request signed with an access key the provider does not know is answered NotSignedUp and performs no file-system step.", "quantifier": "every request", "why_tests_cant": "all requests", "anchors": ["src/service.rs: fetch_secret_key", "src/auth.rs: SimpleAuth"]}
{"id": "C42", "title": "Behaviour without a provider", "statement": "Without an authentication provider every unsigned request that is not a form upload is handed to the operations; every request carrying credentials, and every form upload, is answered with an error without a file-system step (NotSupported when it is well formed).", "quantifier": "every request", "why_tests_cant": "all requests", "anchors": ["src/service.rs: check_signature, check_header_auth, check_presigned_url, check_post_signature"]}
{"id": "C43", "title": "Expired presigned URLs are refused", "statement": "A presigned URL is refused once X-Amz-Date + X-Amz-Expires has passed.", "quantifier": "every presigned request and every time of day", "why_tests_cant": "time", "anchors": ["src/service.rs: check_presigned_url", "src/signature_v4.rs: PresignedUrl"]}
{"id": "C44", "title": "Headers that select the operation are covered by the signature", "statement": "Adding or changing an x-amz-* header of an accepted signed request invalidates its signature.", "quantifier": "every accepted request and header", "why_tests_cant": "all requests", "anchors": ["src/service.rs: check_header_auth", "src/signature_v4.rs: create_canonical_request", "src/ops/copy_object.rs: is_match"]}
{"id": "C45", "title": "POST policies restrict what may be uploaded", "statement": "A POST form upload is accepted only when it satisfies its signed policy (bucket, key).", "quantifier": "every form", "why_tests_cant": "all policies and forms", "anchors": ["src/service.rs: check_post_signature"]}
{"id": "C46", "title": "The handling does not depend on the order of query parameters or headers", "statement": "Reordering the query parameters or the headers of a request changes neither whether its signature is accepted nor what the server does with it.", "quantifier": "every request and permutation", "why_tests_cant": "all permutations", "anchors": ["src/signature_v4.rs: create_canonical_request", "src/data_structures/ordered_qs.rs"]}
{"id": "C47", "title": "Chunked decoding does not depend on fragmentation", "statement": "The bytes and the verdict delivered by the aws-chunked decoder depend only on the concatenation of the body fragments.", "quantifier": "every body and every fragmentation, including empty fragments", "why_tests_cant": "fragmentations are unbounded", "anchors": ["src/streams/aws_chunked_stream.rs: AwsChunkedStream::new, read_meta_bytes, read_data"]}
{"id": "C48", "title": "Chunked encoding round trip", "statement": "Decoding a correctly signed aws-chunked body of any chunks yields exactly the concatenated chunk data and success.", "quantifier": "every list of chunks (each below 2^32 bytes), key, date, region and fragmentation", "why_tests_cant": "unbounded", "anchors": ["src/streams/aws_chunked_stream.rs", "src/signature_v4.rs: create_chunk_string_to_sign"]}
{"id": "C49", "title": "Only authenticated chunk bytes are delivered", "statement": "Every byte the aws-chunked decoder delivers belongs to a chunk whose signature, chained from the seed signature over all previous chunks, was verified; on a mismatch nothing of that chunk or later is delivered.", "quantifier": "every body, also malicious", "why_tests_cant": "all bodies", "anchors": ["src/streams/aws_chunked_stream.rs: check_signature"]}
{"id": "C50", "title": "Truncated chunked uploads are detected", "statement": "An aws-chunked body that ends before the final zero-length chunk is reported as an error.", "quantifier": "every truncation point of every body", "why_tests_cant": "truncation points", "anchors": ["src/streams/aws_chunked_stream.rs: AwsChunkedStream::new"]}
{"id": "C51", "title": "Form file content ends at the first delimiter", "statement": "The file stream of a multipart/form-data upload delivers exactly the bytes before the first CRLF--boundary, for every fragmentation, and reports an error if there is none.", "quantifier": "every body, boundary and fragmentation", "why_tests_cant": "fragmentations inside the delimiter", "anchors": ["src/streams/multipart.rs: FileStream::new"]}
{"id": "C52", "title": "Form parsing does not depend on fragmentation", "statement": "The fields and file of a multipart/form-data body do not depend on how the body is fragmented.", "quantifier": "every body and fragmentation", "why_tests_cant": "fragmentations", "anchors": ["src/streams/multipart.rs: transform_multipart, try_parse, CrlfLines"]}
{"id": "C53", "title": "Form field lookup", "statement": "Looking up a form field returns the value of the last field of that name, ignoring ASCII case, and nothing iff there is no such field.", "quantifier": "every field list and name", "why_tests_cant": "unbounded lists", "anchors": ["src/streams/multipart.rs: find_field_value"]}
{"id": "C54", "title": "Header and query lookup is exact", "statement": "Looking up a header or query parameter returns a value iff the request carries that name, and the value is one the request carries under that name.", "quantifier": "every header list and query list", "why_tests_cant": "binary search over unbounded lists", "anchors": ["src/data_structures/ordered_headers.rs: get", "src/data_structures/ordered_qs.rs: get"]}
{"id": "C55", "title": "Operation dispatch is exact", "statement": "Every request is dispatched to the operation determined by method, address kind, query parameters and copy-source header according to the S3 operation table, or answered NotSupported.", "quantifier": "every request", "why_tests_cant": "all combinations of an unbounded query and header set", "anchors": ["src/ops.rs: setup_handlers", "src/ops/*: is_match", "src/service.rs: handle"]}
{"id": "C56", "title": "No request makes the server panic", "statement": "Every request is answered; none makes the handler panic.", "quantifier": "every request", "why_tests_cant": "all requests", "anchors": ["src/ops.rs: unwrap_object_path, unwrap_bucket_path, unwrap_qs", "src/ops/upload_part.rs: is_match, extract"]}
{"id": "C57", "title": "UploadPartCopy is not executed as CopyObject", "statement": "A PUT with partNumber, uploadId and x-amz-copy-source never replaces the target object.", "quantifier": "every request", "why_tests_cant": "combination of parameters", "anchors": ["src/ops.rs: setup_handlers", "src/ops/copy_object.rs: is_match", "src/ops/upload_part.rs: is_match"]}
{"id": "C58", "title": "Error codes round trip", "statement": "Every S3 error code is rendered to a distinct string that parses back to it, and every error response carries a non-success status.", "quantifier": "every error code and every string", "why_tests_cant": "whole table and all strings", "anchors": ["src/errors.rs: S3ErrorCode"]}
{"id": "C59", "title": "URI encoding is invertible", "statement": "Percent-encoding a string and decoding gives it back; encodings of different strings differ; the output contains only unreserved characters, '%' escapes and optionally '/'.", "quantifier": "every byte string", "why_tests_cant": "infinitely many", "anchors": ["src/signature_v4.rs: uri_encode", "src/service.rs: decode_uri_path"]}
{"id": "C60", "title": "Date header round trip", "statement": "An x-amz-date is accepted iff it has the form YYYYMMDDTHHMMSSZ with ASCII digits, and formatting the accepted value gives back the same string.", "quantifier": "every string", "why_tests_cant": "infinitely many", "anchors": ["src/headers/amz_date.rs: AmzDate"]}
{"id": "C61", "title": "Authorization header round trip", "statement": "Parsing an Authorization header built from algorithm, credential, signed headers and signature returns exactly these parts; fields never leak into each other.", "quantifier": "all parts satisfying the SigV4 character rules", "why_tests_cant": "infinitely many", "anchors": ["src/headers/authorization_v4.rs: AuthorizationV4, CredentialV4"]}
{"id": "C62", "title": "Copy source addressing is exact", "statement": "x-amz-copy-source 'b/k' addresses object k of bucket b (b up to the first '/'); it is refused when b is not a legal bucket name or k is longer than 1024 bytes.", "quantifier": "every header string", "why_tests_cant": "infinitely many", "anchors": ["src/headers/amz_copy_source.rs"]}
{"id": "C63", "title": "Access key store", "statement": "SimpleAuth returns, for an access key, the secret registered last under it, and an error iff none was registered.", "quantifier": "every sequence of registrations and every key", "why_tests_cant": "unbounded sequences", "anchors": ["src/auth.rs: SimpleAuth"]}
{"id": "C64", "title": "User metadata round trip through HTTP", "statement": "User metadata sent with PutObject as x-amz-meta-* headers or POST form fields comes back on GetObject/HeadObject with the same names and values.", "quantifier": "every header list / form", "why_tests_cant": "unbounded", "anchors": ["src/ops/put_object.rs: extract, extract_from_multipart", "src/ops/get_object.rs", "src/ops/head_object.rs"]}
{"id": "C65", "title": "XML text round trip", "statement": "Text placed in an XML response (keys, bucket names, messages) is recovered by an XML reader.", "quantifier": "every text", "why_tests_cant": "all strings", "anchors": ["src/utils/xml.rs", "src/output.rs: XmlErrorResponse"]}
{"id": "C66", "title": "Form uploads are read as they were written", "statement": "A multipart/form-data body written as browsers write it (any number of fields, then the file) is accepted, and the fields, file name, content type and file content are exactly those that were written, however the body is fragmented behind its first line.", "quantifier": "every boundary without CR, field list, file name, content type, content without the delimiter, closing text and fragmentation", "why_tests_cant": "unbounded field lists, contents and fragmentations, including contents that look like the beginning of the delimiter", "anchors": ["src/streams/multipart.rs: transform_multipart, try_parse, FileStream::new"]}
{"id": "C67", "title": "Each operation fails only with its documented errors", "statement": "The error code of a failed storage operation belongs to a fixed short list for that operation (for example NoSuchKey for GetObject and HeadObject, NoSuchBucket for HeadBucket, BucketAlreadyExists for CreateBucket, always InternalError for I/O errors), whatever concurrent requests do.", "quantifier": "every operation, every state of the file tree, every schedule of concurrent requests", "why_tests_cant": "all states, all I/O results, all interleavings", "anchors": ["src/storages/fs.rs", "src/errors.rs"]}
{"id": "C68", "title": "Folder objects hold no content", "statement": "A PutObject to a key ending in '/' is refused (UnexpectedContent) unless it announces an empty body, and then changes nothing; when it succeeds it is answered without an ETag, the folder exists, and the content of no object has changed.", "quantifier": "every request to a key ending in '/', every state of the store", "why_tests_cant": "all keys, bodies, announced lengths and states of the file tree", "anchors": ["src/storages/fs.rs: put_object"]}
{"id": "C69", "title": "The declared payload checksum is that of the body", "statement": "A request signed in its header that is not refused declares its payload in x-amz-content-sha256 as UNSIGNED-PAYLOAD, STREAMING-AWS4-HMAC-SHA256-PAYLOAD or 64 lower-case hexadecimal digits, and in the last case the digits are the SHA-256 of the body; other declarations are answered XAmzContentSHA256Mismatch.", "quantifier": "every signed request, every declaration, every body", "why_tests_cant": "all header values and bodies; acceptance of a wrong declaration is a property of the whole checking path", "anchors": ["src/headers/amz_content_sha256.rs", "src/utils/crypto.rs: is_sha256_checksum", "src/service.rs: check_header_auth"]}
{"id": "C70", "title": "Concurrent uploads to one object leave one of the bodies", "statement": "After any number of concurrent PutObjects to one object of which at least one was answered with success, the object holds exactly one of the uploaded bodies, and each answer is the ETag of its own body.", "quantifier": "any number of concurrent uploads of any bodies in any fragmentation, any concurrent requests to other objects, every schedule", "why_tests_cant": "interleavings of system calls cannot be enumerated or forced by tests", "anchors": ["src/storages/fs.rs: put_object", "src/storages/fs.rs: copy_bytes"]}
{"id": "C71", "title": "A client reads in a listing exactly the stored objects", "statement": "The XML document that answers ListObjects or ListObjectsV2 is well formed, and a client that parses it reads exactly the keys of the objects of the bucket that begin with the requested prefix, in order and once each, with their sizes, the name of the bucket and, for version 2, the number of keys.", "quantifier": "any bucket content, any keys, any prefix and parameters, any request that asks for a listing", "why_tests_cant": "keys and contents are unbounded; escaping and document structure interact on arbitrary texts", "anchors": ["src/ops/list_objects.rs: output", "src/ops/list_objects_v2.rs: output", "src/utils/xml.rs", "src/utils/response.rs: set_xml_body"]}
{"id": "C72", "title": "Errors reach the client as status and document", "statement": "A refused request is answered with the HTTP status of its error code and a well-formed XML document that names the code (and the message, when there is one); the connection is never dropped by an error value, whatever other requests run at the same time.", "quantifier": "any requests, any file tree, any number of concurrent requests, every schedule", "why_tests_cant": "every error path under every interleaving cannot be enumerated", "anchors": ["src/service.rs: hyper_call", "src/errors.rs: S3Error::try_into_response", "src/utils/xml.rs"]}
{"id": "C73", "title": "DeleteObjects reports what was deleted", "statement": "The document that answers DeleteObjects names exactly the keys of the request that were stored, in the order of the request, and after it none of the keys is stored.", "quantifier": "any list of keys, any bucket content", "why_tests_cant": "lists of keys and states are unbounded", "anchors": ["src/ops/delete_objects.rs: output", "src/storages/fs.rs: delete_objects"]}
{"id": "C74", "title": "Multipart documents", "statement": "The documents that answer CreateMultipartUpload and CompleteMultipartUpload are those of the S3 API: they name the bucket and key of the request and give the upload id, or the ETag of the content that is now stored.", "quantifier": "any bucket, key, upload id, parts, file tree", "why_tests_cant": "arbitrary texts in documents, arbitrary part lists", "anchors": ["src/ops/create_multipart_upload.rs: output", "src/ops/complete_multipart_upload.rs: output"]}
{"id": "C75", "title": "Headers of PUT, GET and HEAD agree over HTTP", "statement": "After a PUT answered 200, its ETag header is the quoted MD5 of the content sent; GET is answered 200 with that ETag, that content and its length as Content-Length; HEAD is answered with the same headers and no content.", "quantifier": "any object, content, fragmentation, read sizes, file tree", "why_tests_cant": "contents and fragmentations are unbounded; three responses have to agree", "anchors": ["src/ops/put_object.rs: output", "src/ops/get_object.rs: output", "src/ops/head_object.rs: output"]}
{"id": "C76", "title": "A client reads in ListBuckets exactly the buckets", "statement": "The XML document that answers ListBuckets is well formed and a client that parses it reads every bucket exactly once, and nothing else.", "quantifier": "any file tree, any bucket names, any request that asks for the buckets", "why_tests_cant": "directory contents are unbounded", "anchors": ["src/ops/list_buckets.rs: output", "src/storages/fs.rs: list_buckets"]}
{"id": "C77", "title": "Uploads in signed chunks are stored as sent", "statement": "A PUT whose body comes in chunks (x-amz-content-sha256: STREAMING-AWS4-HMAC-SHA256-PAYLOAD), each signed by the AWS rule from the signature before it, beginning with the signature of the request: if it is answered 200, the object holds the joined data of the chunks, and the ETag is the MD5 of it.", "quantifier": "any chunks (sizes, data, number), any fragmentation of the body, any signed request, key, file tree", "why_tests_cant": "chunkings and fragmentations are unbounded; the chain of signatures runs through all of them", "anchors": ["src/streams/aws_chunked_stream.rs: AwsChunkedStream", "src/signature_v4.rs: create_chunk_string_to_sign", "src/service.rs: check_header_auth"]}
{"id": "C78", "title": "Signed chunks cannot be altered, reordered, repeated or left out", "statement": "Whatever arrives behind an accepted request with signed chunks: what the server hands on is the data of chunks each of which carries the signature that follows from the request and all chunks before it. If the last of these signatures is one that the client made, the chunks are the client's first chunks, in order and unchanged (or a collision of SHA-256 or HMAC has been found).", "quantifier": "any body, any chunks of the client, any crypto functions of the right output shape", "why_tests_cant": "all alterations of all bodies", "anchors": ["src/streams/aws_chunked_stream.rs: AwsChunkedStream", "src/signature_v4.rs: create_chunk_string_to_sign", "src/service.rs: check_header_auth"]}
{"id": "C79", "title": "What is stored is what was sent", "statement": "A PUT with a plain body or a form upload that is answered 200 stores exactly the bytes of the body, or of the file in the form; a body that breaks off is never answered 200.", "quantifier": "any body, fragmentation, request, form, file tree", "why_tests_cant": "bodies and fragmentations are unbounded", "anchors": ["src/service.rs: S3Service::handle", "src/streams/multipart.rs: transform_multipart", "src/storages/fs.rs: put_object"]}
{"id": "C80", "title": "Requests about different objects do not notice each other", "statement": "A request about objects or upload parts, running together with any number of requests that write or delete neither these objects and parts nor their buckets, gets the answer it would get alone, and leaves its objects, their metadata and its parts as it would leave them alone, provided the folders of the objects it stores exist.", "quantifier": "any number of concurrent requests, any interleaving of their system calls, any file tree", "why_tests_cant": "interleavings and combinations of requests are unbounded", "anchors": ["src/storages/fs.rs: impl S3Storage for FileSystem"]}
{"id": "C81", "title": "Parts may be uploaded in parallel", "statement": "Parts of an upload that are uploaded at the same time, in any order and together with other requests, and are then assembled while other requests run elsewhere, make the object that is the concatenation of the parts by part number; the parts are used up.", "quantifier": "any number of parts, any bodies, any interleaving, any other requests", "why_tests_cant": "interleavings are unbounded", "anchors": ["src/storages/fs.rs: upload_part", "src/storages/fs.rs: complete_multipart_upload"]}
{"id": "C82", "title": "An object read while it is being deleted is read whole or not at all", "statement": "A GET or HEAD of an object that runs while the object or its bucket is being deleted is answered with the whole object as before the deletion, or with NoSuchKey.", "quantifier": "any number of concurrent deletions and requests elsewhere, any interleaving, any range and read sizes", "why_tests_cant": "the outcome depends on the interleaving of system calls", "anchors": ["src/storages/fs.rs: get_object", "src/storages/fs.rs: head_object", "src/storages/fs.rs: delete_object", "src/storages/fs.rs: delete_bucket"]}
{"id": "C83", "title": "Malformed addresses and headers are refused for the right reason", "statement": "A request whose path is not valid UTF-8 after decoding or does not begin with a slash is refused with InvalidURI, one whose bucket name breaks the naming rule with InvalidBucketName, one whose key is longer than 1024 bytes with KeyTooLongError; a request with a header value that is not plain text or with an unreadable content type is refused with InvalidRequest. All these answers have status 400 and change nothing; every other path addresses something.", "quantifier": "every request (any method, body, credentials), every configuration and every stored state", "why_tests_cant": "the malformed paths are infinitely many and combine with all other parts of a request", "anchors": ["src/service.rs: extract_s3_path, decode_uri_path, extract_headers, extract_mime", "src/path.rs: S3Path::try_from_path"]}
{"id": "C84", "title": "The headers of the parts of a form are read exactly", "statement": "The Content-Disposition of a part of a form is accepted iff it is form-data with a quoted non-empty name and optionally a quoted non-empty file name, both UTF-8 without double quotes, and nothing else; the names are those written. A form with any other Content-Disposition in a part is refused.", "quantifier": "every header text; every number of fields before the malformed part, every text behind it, every fragmentation that does not split the first line", "why_tests_cant": "header texts, positions and fragmentations are unbounded", "anchors": ["src/streams/multipart.rs: parse_content_disposition, try_parse"]}
{"id": "C85", "title": "Metadata files are JSON and read back the same", "statement": "After a successful upload with user metadata the metadata file of the object is a JSON document with exactly these entries (in some order), whatever characters they contain. A metadata file is read exactly when it is a JSON object of strings, of members with the same name the last one counts, and GET and HEAD deliver its entries; with any other content they answer InternalError. What is written is read back the same.", "quantifier": "every metadata map of UTF-8 texts, every iteration order of the hash map; every content of a metadata file", "why_tests_cant": "names, values, escapes, white space and orders are unbounded", "anchors": ["src/storages/fs.rs: load_metadata, save_metadata, get_object, head_object, put_object"]}
{"id": "C86", "title": "A listing that runs among other requests shows what is stored", "statement": "A listing of a bucket that runs while other requests store and delete objects succeeds. Its keys stand once each in ascending order and start with the requested prefix; each of them was stored when the requests began or is stored by one of them. An object that none of the other requests stores or deletes is listed, with its size, exactly when it is stored.", "quantifier": "any number of concurrent requests of any kind, any interleaving of their file system steps, any bucket, prefix and nesting of folders", "why_tests_cant": "the outcome depends on the interleaving of system calls, and on unboundedly many trees", "anchors": ["src/storages/fs.rs: list_objects", "src/storages/fs.rs: list_objects_v2", "src/storages/fs.rs: put_object", "src/storages/fs.rs: delete_object"]}
{"id": "C87", "title": "Times in responses are the times of the files", "statement": "The Last-Modified header of GET and HEAD denotes the second of the last modification of the object it describes, in the one notation of HTTP (GMT). The times in listings of objects and buckets denote the times of the files and directories to the nanosecond, in RFC 3339 notation. This holds whatever the time zone of the server is, and for every RFC 3339 text that another storage may give. The notation of HTTP is unambiguous.", "quantifier": "every time from 1970 to 9999, every offset of the local time zone, every RFC 3339 text with any number of digits of a fraction and any offset, every request", "why_tests_cant": "days, leap years, offsets that change the date or the year and fractions make unboundedly many cases; the tests run in one time zone", "anchors": ["src/utils/time.rs: to_rfc3339, rfc3339_to_last_modified", "src/storages/fs.rs: get_object, head_object, list_objects, list_buckets", "src/ops/get_object.rs: try_into_response", "src/ops/head_object.rs: try_into_response", "src/ops/list_buckets.rs", "src/ops/list_objects.rs"]}
{"id": "C88", "title": "The answer to CopyObject describes the copy", "statement": "A CopyObject answered 200 carries a well-formed document whose ETag is the quoted MD5 of what is now stored at the destination and whose LastModified is the time of the last modification of the object that was made.", "quantifier": "every source and destination, every content, every state of the storage, every time zone", "why_tests_cant": "contents and states are unbounded; the time is that of another file and a test that copies at once sees no difference", "anchors": ["src/storages/fs.rs: copy_object", "src/ops/copy_object.rs: try_into_response"]}
{"id": "C89", "title": "Over HTTP the server is a map from addresses to objects", "statement": "A client that sends requests one after the other, whatever else is sent about other addresses or refused in between, sees in every response (status, body, ETag, length, metadata headers, error document) what a map from bucket and key to content and metadata would answer: PUT and CopyObject replace an entry, DELETE removes it, GET and HEAD show it or say NoSuchKey.", "quantifier": "every list of HTTP requests of any length about addresses none of which is a folder of another, mixed with any requests about other addresses and with refused requests; every initial state that a map describes", "why_tests_cant": "histories are unbounded and the state depends on all of them", "anchors": ["src/service.rs: hyper_call, handle", "src/ops/put_object.rs", "src/ops/get_object.rs", "src/ops/head_object.rs", "src/ops/delete_object.rs", "src/ops/copy_object.rs", "src/storages/fs.rs: FileSystem"]}
{"id": "C90", "title": "DeleteObjects deletes what its document lists", "statement": "However a client lays out the XML document of a DeleteObjects request (declaration, namespace, white space, entities, Quiet before or behind the objects), exactly the objects whose keys it lists are deleted and no other object changes; the response names the keys that were deleted, in quiet mode only those that could not be deleted, and a version id in the document restricts the deletion to that version.", "quantifier": "every document of the S3 schema with any number of keys, every key without white space at its ends, every layout; every state of the store", "why_tests_cant": "layouts, keys and numbers of keys are unbounded", "anchors": ["src/ops/delete_objects.rs: extract, xml", "src/utils/body.rs: deserialize_xml_body", "src/storages/fs.rs: delete_objects"]}
{"id": "C91", "title": "CompleteMultipartUpload assembles the parts its document lists", "statement": "However a client lays out the XML document of a CompleteMultipartUpload request, if it lists the parts 1 to n with the ETags they were answered with, then the object consists of what was last uploaded as these parts, in order; if an ETag is not that of the part, the request is refused.", "quantifier": "every document of the S3 schema, every number of parts, every history of uploads; every state of the store", "why_tests_cant": "layouts, histories and numbers of parts are unbounded", "anchors": ["src/ops/complete_multipart_upload.rs: extract, xml", "src/utils/body.rs: deserialize_xml_body", "src/storages/fs.rs: complete_multipart_upload"]}
{"id": "C92", "title": "The location of a bucket is kept", "statement": "CreateBucket without a document or with a document that names a location creates the bucket if its name is free, and GetBucketLocation then answers with that location.", "quantifier": "every bucket name, location and layout of the document; every state of the store in which the name is free", "why_tests_cant": "names, locations and layouts are unbounded", "anchors": ["src/ops/create_bucket.rs", "src/ops/get_bucket_location.rs", "src/storages/fs.rs: create_bucket, get_bucket_location"]}
{"id": "C93", "title": "Upload ids are bound to an upload", "statement": "Parts are accepted only for upload ids that CreateMultipartUpload has issued, and only for the object for which the id was issued; parts uploaded with one id never become part of an upload with another id.", "quantifier": "every history of multipart requests, every id, bucket and key", "why_tests_cant": "histories and ids are unbounded", "anchors": ["src/storages/fs.rs: create_multipart_upload, upload_part, complete_multipart_upload"]}
{"id": "C94", "title": "Every request is answered, whatever becomes of the others", "statement": "Requests never wait for each other: however any number of requests interleave, each one that keeps getting its turn is answered after finitely many steps, with one response, even if the others stop halfway for ever (requests that make the handler panic excepted, C56).", "quantifier": "every finite set of concurrent requests, every unending schedule, every file tree", "why_tests_cant": "a liveness property over infinitely many unending schedules", "anchors": ["src/service.rs: S3Service::hyper_call", "src/storages/fs.rs: list_objects, list_objects_v2"]}
{"id": "C95", "title": "Clients that work on different objects do not notice each other", "statement": "When any number of clients talk to the server at the same time, each sending its next request, chosen as it likes, when it has the response to the last one, a client whose objects and upload parts the others do not write or delete has the conversation it would have with a server that serves nobody else, and leaves its objects and parts as it would leave them then (the folders of the objects it stores exist). The conversation comes to its end if the client keeps getting its turn. Its responses are those of a map from addresses to contents as in C89.", "quantifier": "any number of clients, any strategies (each request may depend on all earlier responses), any interleaving of system calls, any file tree", "why_tests_cant": "clients, strategies and interleavings are unbounded", "anchors": ["src/service.rs: S3Service::hyper_call", "src/storages/fs.rs: impl S3Storage for FileSystem"]}
{"id": "C96", "title": "Spellings of the same place are the same object, different places are independent", "statement": "Following the segments of a key from its bucket (empty segments and '.' stay, '..' goes to the parent, every other segment enters) leads to exactly one place; a key with a leading slash is the full path of a file below the storage directory. Two addresses of the same place inside a bucket always show the same bytes, length and entity tag, what is put or deleted under the one is put or deleted under the other, and copying the one onto the other empties both; only metadata belongs to the spelling. PutObject, DeleteObject, CopyObject, CompleteMultipartUpload and UploadPart at one place leave the objects at every other place as they are, with their metadata.", "quantifier": "every file tree, every two buckets and keys (any spelling of the form of a file name whose place lies inside a bucket), every body, range and read pattern", "why_tests_cant": "ranges over all spellings of keys, with any number of segments, and over all prior states", "anchors": ["src/storages/fs.rs: get_object_path, get_metadata_path, put_object, get_object, delete_object, copy_object"]}
{"id": "C97", "title": "Who may use a server started from the command line", "statement": "The server program starts exactly if the access key and the secret key are given both or not at all and the storage directory exists, and it serves that directory whatever the spelling of its path. Started with keys it does something only for requests that name this access key and are signed with this secret; started without keys it serves every unsigned request that is not a form upload and refuses every request with credentials.", "quantifier": "every command line (storage directory, keys), file tree, working directory and request", "why_tests_cant": "ranges over all option values, paths and requests", "anchors": ["src/bin/s3-server.rs: Args, main", "src/storages/fs.rs: FileSystem::new", "src/auth.rs: SimpleAuth"]}
{"id": "C98", "title": "The policy of a form upload must be base64 text", "statement": "A form upload is served only if its policy field is the base64 text (RFC 4648, with padding and without stray bits) of some data; otherwise it is answered InvalidRequest.", "quantifier": "every form upload, provider and policy text", "why_tests_cant": "ranges over all texts", "anchors": ["src/utils/crypto.rs: is_base64_encoded", "src/service.rs: check_post_signature"]}
{"id": "C99", "title": "A signature is good for one thing", "statement": "If two accepted requests - whoever sent them, however and whenever they were signed - carry the same signature, then they were signed with the same secret for the same day and region and stand for the same thing: the same request (date, method, path, query, signed headers, signed payload), or the same form policy, never a request and a policy; or else an explicit collision of HMAC-SHA256 or SHA-256 among the values computed for these two requests is obtained.", "quantifier": "every pair of requests, every pair of key tables, any mixture of header signatures, presigned URLs and forms", "why_tests_cant": "pairs of unbounded inputs and of secrets", "anchors": ["src/signature_v4.rs: create_canonical_request, create_presigned_canonical_request, create_string_to_sign, calculate_signature", "src/service.rs: check_signature"]}
{"id": "C100", "title": "A success is honest though the disk fails", "statement": "Whatever goes wrong on the disk during a request (any system call may fail: before its effect, after it, or half way), if an upload, a part, the assembly of parts, the removal of an object or bucket, the creation of a bucket, a listing or a location request is answered with success, then the answer and everything stored are exactly as on a disk on which nothing went wrong. In particular: a successful PutObject has stored the whole body, its metadata and answered the ETag of the body; a successful assembly has stored the parts joined in order; a successful DeleteObject leaves no object; a successful listing is complete.", "quantifier": "every request other than GetObject, HeadObject, CopyObject and DeleteObjects (C101, C102), every file tree, every pattern of failing system calls", "why_tests_cant": "faults at every combination of system calls cannot be injected exhaustively", "anchors": ["src/storages/fs.rs: put_object, upload_part, complete_multipart_upload, delete_object, delete_bucket, list_objects, list_objects_v2, save_metadata", "src/storages/fs.rs: copy_bytes"]}
{"id": "C101", "title": "Reading from a failing disk", "statement": "Whatever goes wrong on the disk, a GetObject answered with success gives the true length and ETag, and either exactly the requested bytes or a transfer that visibly breaks off; GetObject and HeadObject give the metadata the object has; an object or bucket that exists is not said to be missing. (The last two are false of the code: a failing look at the metadata file is taken for its absence, a failing open or stat for a missing object.)", "quantifier": "every object, range, file tree and pattern of failing system calls", "why_tests_cant": "ranges over all fault patterns", "anchors": ["src/storages/fs.rs: get_object, head_object, head_bucket, load_metadata"]}
{"id": "C102", "title": "Copying and deleting many on a failing disk", "statement": "Whatever goes wrong on the disk, a CopyObject answered with success has copied all bytes and the metadata, and a DeleteObjects answered with success has removed what it reports and reports everything it was asked for that existed. (False of the code for the metadata and for the completeness of the report: a failing existence check is taken for absence.)", "quantifier": "every source and destination, every list of keys, every file tree and pattern of failing system calls", "why_tests_cant": "ranges over all fault patterns", "anchors": ["src/storages/fs.rs: copy_object, delete_objects"]}
{"id": "C103", "title": "Errors of the disk do not spread", "statement": "Whatever goes wrong on the disk, at every moment of a request and after it: objects the request is not about keep content and metadata, requests that only read change nothing, nothing outside the storage root changes, the request does not panic, and an error it is answered with is one documented for the operation.", "quantifier": "every request, other object, file tree, pattern of failing system calls and moment", "why_tests_cant": "ranges over all fault patterns and moments", "anchors": ["src/storages/fs.rs: FileSystem", "src/path.rs"]}
{"id": "C104", "title": "What a failed write leaves", "statement": "Whatever goes wrong on the disk, and whenever the server dies: an object that is being uploaded or is the destination of a copy has its old content or a beginning of the new one, and the old one if the request is answered with an error; a part likewise; while parts are assembled the bytes of each part are in its file or in the object; an object being deleted has its old content or is gone. (False of the code: after an error the old content may be lost.)", "quantifier": "every such request, file tree, pattern of failing system calls and moment", "why_tests_cant": "ranges over all fault patterns and moments", "anchors": ["src/storages/fs.rs: put_object, upload_part, copy_object, complete_multipart_upload, delete_object"]}
{"id": "C105", "title": "What has been acknowledged stays", "statement": "An upload that has been answered with success is kept - content, metadata and the announced ETag -, an object assembled from parts or copied with success is kept, a deletion that has been answered with success stays done, and a part that has been acknowledged is there, through everything that follows on other objects: requests served at the same time and later, system calls that fail, the death of the server at any moment, and restarts on the tree that was left.", "quantifier": "every file tree, every list of runs of the server with any number of concurrent requests on other objects, any interleaving, any failing system calls, each run cut off at any moment", "why_tests_cant": "ranges over all histories of crashes, faults and interleavings", "anchors": ["src/storages/fs.rs: put_object, delete_object, upload_part, complete_multipart_upload, copy_object, save_metadata"]}
{"id": "C106", "title": "Isolation also when the disk fails", "statement": "A request about objects and parts, served among any number of requests that write and delete only elsewhere, on a disk on which any system calls of any request fail, behaves as alone on a disk on which only its own calls fail: same answer, same effect on its objects, their metadata and its parts, at every moment. If its own calls do not fail, it does what it does alone on a sound disk.", "quantifier": "every request about objects, every file tree with the folders in place, every set of requests beside it, every interleaving, fault pattern and moment", "why_tests_cant": "ranges over all interleavings, fault patterns and concurrent requests", "anchors": ["src/storages/fs.rs: all operations"]}
{"id": "C107", "title": "What an HTTP client has been told stays true", "statement": "If a client has received the response 200 to an upload, a copy, a part or the completion of a multipart upload, or 204 to a deletion, then what the response says is so and stays so: later requests for the object are answered, if at all, 200 with the uploaded bytes, the announced ETag, the length and the metadata (if their own system calls do not fail), and never 200 for a deleted object. This holds among any number of other HTTP requests on other objects or refused ones, with failing system calls, deaths of the server at any moment, and restarts. A GET answered 200 never carries other bytes than the object's, whatever fails: its body is complete or breaks off.", "quantifier": "every request, every file tree, every list of runs of the server with any HTTP requests about other objects, any interleaving, fault pattern and moment of death", "why_tests_cant": "ranges over all histories of requests, crashes, faults and interleavings", "anchors": ["src/service.rs: hyper_call, handle", "src/storages/fs.rs: all operations", "src/ops/*.rs"]}
{"id": "C108", "title": "Last-Modified tells when an object was last written", "statement": "After an upload, a copy or a completion that was answered with success, the modification time of the object is a time that the clock showed while the server worked on that request, and GET and HEAD show it (to the second) in Last-Modified; requests about other objects, failing system calls, deaths of the server and restarts do not change it. An object never changes its content without its modification time becoming a time of the life in which it changed; so a client that sees a Last-Modified that the clock did not show in the meantime has the current content (the same second is not enough: an object written twice within one second shows the same Last-Modified). The creation time of a bucket is likewise a time of the CreateBucket that was answered with success, and writing objects does not change it.", "quantifier": "every file tree with every assignment of times, every list of runs of the server with any requests, interleaving, fault pattern, moment of death, and any behaviour of the clock", "why_tests_cant": "ranges over all histories of requests, crashes, faults, interleavings and clock readings", "anchors": ["src/storages/fs.rs: put_object, copy_object, complete_multipart_upload, create_bucket, get_object, head_object", "src/utils/time.rs"]}
{"id": "C109", "title": "A failure of the power harms only what was being written", "statement": "The server never forces its files to the disk, so after a failure of the power anything written since the disk was last in sync may be lost in part. Objects and metadata that no request wrote or deleted in that time are intact, after any number of such failures; an object that was uploaded or deleted is gone, or each of its bytes is a zero or stood at the same place in the former content or in one of the uploaded bodies (never bytes of other objects); an object that was only deleted is gone or as before; nothing outside the storage root changes. What was acknowledged can be lost: an acknowledged upload can be gone or full of zeros, an acknowledged deletion can be undone, and an acknowledged completion of a multipart upload can lose the object together with parts that had been on the disk before.", "quantifier": "every file tree, every list of runs of the server with any requests, interleaving, fault pattern and moment of the failure, every state of the disk that such a failure can leave (each name, file and byte by itself from any time of the run)", "why_tests_cant": "ranges over all histories and over all subsets of unsynced writes that a failure of the power may lose", "anchors": ["src/storages/fs.rs: put_object, delete_object, complete_multipart_upload, copy_bytes (no sync_all)"]}
{"id": "C110", "title": "Requests may be sent again", "statement": "A client that does not know what became of a request may send it again. After an upload of an object or of a part that was answered with success the same request is answered the same and nothing changes; the same holds for copies from plain keys. A CreateBucket or DeleteBucket that succeeded is refused the second time without effect, deletions of objects done twice do the same as once. After an attempt to upload, or to copy between two different plain addresses, that was cut off at any moment or failed on the disk in any way, the same request sent again succeeds with the same answer, and afterwards everything is as if the first attempt had succeeded. The same is true of CreateBucket, DeleteBucket, DeleteObject and DeleteObjects, except that the second answer may tell that the work was done already. If the first attempt is still under way, then when one of the attempts has succeeded and all have been answered the object is the body. None of this holds for CompleteMultipartUpload: sent again it empties the object it had put together; after a failure the retry fails and loses the parts that had been used; two at a time can acknowledge an object with a hole.", "quantifier": "every file tree, every request, every fault pattern and moment of death of the first attempt, every number of simultaneous attempts, every way they are fragmented, every interleaving with each other and with requests on other objects", "why_tests_cant": "ranges over all trees, all moments at which the first attempt can be cut off, all faults and all interleavings", "anchors": ["src/storages/fs.rs: put_object, upload_part, copy_object, create_bucket, delete_bucket, delete_object, delete_objects, complete_multipart_upload, copy_bytes"]}
{"id": "C111", "title": "What can happen once is confirmed once", "statement": "A client that is told it deleted an object may rely on being the only one: as long as nobody stores the object, at most one request (DeleteObject or DeleteObjects) is told that it deleted it; as long as a part of a multipart upload is not uploaded again, at most one CompleteMultipartUpload that lists the part succeeds; as long as nobody deletes a bucket, at most one CreateBucket for it succeeds. This holds for requests at the same time or one after the other, over restarts, cut-off runs and errors of the disk. Of DeleteObject requests for an existing object that run at the same time exactly one is answered with success. For DeleteObjects only 'at most one' holds: an object may be deleted without anybody being told.", "quantifier": "every file tree, every list of runs of the server with any requests, interleaving, fault pattern and moment of death; every number of rivals", "why_tests_cant": "ranges over all interleavings of any number of requests, all faults and all restarts", "anchors": ["src/storages/fs.rs: delete_object, delete_objects, complete_multipart_upload, create_bucket"]}
{"id": "C112", "title": "Presigned URLs and signed forms work for whoever holds them", "statement": "A URL presigned by the AWS rules by a user the provider knows, valid for at most a week, is accepted, whoever sends it, and does what it asks for, with the body that was sent. A form as browsers write it, with the signature of its policy by the AWS rules by a known user, is accepted; its fields and its file arrive exactly as they were written, and the server does what it asks for; `${filename}` in the key stands for the name of the file.", "quantifier": "every presigned request and every signed form, every provider and secret, every fragmentation of the body, every file tree", "why_tests_cant": "ranges over all requests, keys, headers, query parameters, secrets, forms and fragmentations", "anchors": ["src/service.rs: check_signature, check_presigned_url, check_post_signature", "src/signature_v4.rs: PresignedUrl::from_query, create_presigned_canonical_request, calculate_signature", "src/streams/multipart.rs: transform_multipart, Multipart"]}
{"id": "C113", "title": "The server tells nothing about secrets", "statement": "What the server does with a request depends on the secret keys of its users only through the question whether texts the client has itself put into the request are correct signatures: with two providers that differ only in secrets, and under which the same texts offered by the request are signatures, the request has the same answer and the same effects. Secrets of users whom the request does not name do not count at all. (Time is not modelled: the comparison of signatures in the code is not constant-time.)", "quantifier": "every request, every pair of providers, every file tree", "why_tests_cant": "compares the behaviour under all pairs of secrets on all requests", "anchors": ["src/service.rs: check_signature, check_presigned_url, check_post_signature, check_header_auth, fetch_secret_key", "src/streams/aws_chunked_stream.rs: AwsChunkedStream", "src/signature_v4.rs: calculate_signature"]}
{"id": "C114", "title": "What a request asks for is honoured or refused, and nothing else counts", "statement": "Every header and query parameter that the S3 API defines has the effect the API gives it, or the request is refused; a header or query parameter that the API does not define (added by a proxy, say) and that is not signed makes no difference to the answer or to the effects. What is done with an admitted request depends on nothing but its method, path, body and the parameters that the server knows.", "quantifier": "every request, every pair of requests that differ in parameters the server does not know, every provider, every file tree", "why_tests_cant": "an unlimited number of parameters and values, on all requests", "anchors": ["src/ops/*.rs: is_match, extract", "src/service.rs: S3Service::handle, check_signature", "src/data_structures/ordered_headers.rs: OrderedHeaders::from_req, map_signed_headers"]}
{"id": "C115", "title": "Listing a bucket page by page shows every object once", "statement": "A client that lists a bucket page by page, asking for the next page as long as an answer says that it is truncated, sees every object with the prefix exactly once, in ascending order, and comes to an end; no page has more keys than the client allows.", "quantifier": "every bucket, every prefix, every sequence of requests for pages, every sequence of file trees they find", "why_tests_cant": "all bucket contents, all page sizes and markers", "anchors": ["src/storages/fs.rs: FileSystem::list_objects, FileSystem::list_objects_v2", "src/ops/list_objects.rs: try_into_response", "src/ops/list_objects_v2.rs: try_into_response"]}
{"id": "C116", "title": "What is listed can be read, and what can be read is listed", "statement": "Every key that a listing of a bucket shows can be read: a GET of it is answered 200 with as many bytes as the listing says, a HEAD announces as many; and every key whose GET is answered 200 is shown by the listing, if it has the prefix.", "quantifier": "every file tree, every bucket and prefix, every admitted listing (either kind), every admitted GET or HEAD of any key", "why_tests_cant": "all bucket contents, all keys and all requests that ask for them", "anchors": ["src/storages/fs.rs: FileSystem::list_objects, FileSystem::list_objects_v2, FileSystem::get_object, FileSystem::head_object", "src/ops/list_objects.rs: try_into_response", "src/ops/get_object.rs: try_into_response"]}
{"id": "C117", "title": "No client can hold up another, and a request costs what it asks for", "statement": "A request is answered after a number of accesses to the storage that depends on the request only: not on what is stored, not on what other clients do at the same time, not on errors of the disk. A refused request makes none.", "quantifier": "every set of concurrent requests, every order of their steps, every pattern of disk errors, every file tree", "why_tests_cant": "all interleavings, trees of any size, all faults", "anchors": ["src/storages/fs.rs: all methods of FileSystem", "src/service.rs: S3Service::handle"]}
{"id": "C118", "title": "How a request is cut into packets makes no difference", "statement": "Two requests that are the same but for the pieces in which their bodies arrive get the same response and leave the same stored state, whatever they ask for, signed or not, accepted or refused, and also if the connection breaks behind the same bytes.", "quantifier": "every request, every two ways of cutting its body into pieces (empty pieces among them), every stored state", "why_tests_cant": "all ways of cutting all bodies, on all paths through the server (whole bodies, signed chunks, forms, XML documents)", "anchors": ["src/service.rs: check_header_auth, check_post_signature", "src/streams/aws_chunked_stream.rs: AwsChunkedStream", "src/streams/multipart.rs: transform_multipart", "src/utils/body.rs: deserialize_xml_body", "src/storages/fs.rs: copy_bytes, FileSystem::put_object, FileSystem::upload_part"]}
{"id": "C119", "title": "A signature authorizes one behaviour, once", "statement": "Nothing but what the signer asked for can be had with a signature: every accepted request that carries it is answered like the signed request and does the same to the stored objects. A copy of the request that is sent later is refused.", "quantifier": "every two accepted requests that carry the same signature, every key, date and region, every stored state", "why_tests_cant": "all requests an attacker may make from a signature they have seen; all collisions of the hashes made explicit", "anchors": ["src/service.rs: check_header_auth, check_presigned_url", "src/signature_v4.rs: create_canonical_request, calculate_signature", "src/ops/*.rs: extract"]}
{"id": "C120", "title": "The store itself survives", "statement": "No request and no sequence of requests removes the directory the server keeps the buckets in, so that buckets can be listed and created as long as the server is in use.", "quantifier": "every list of requests and keys, every schedule of requests served at the same time, every failing system call, every number of crashes and restarts", "why_tests_cant": "all keys, all interleavings and all crash points", "anchors": ["src/storages/fs.rs: delete_object, delete_bucket, get_object_path", "src/path.rs: extract"]}
{"id": "C121", "title": "Where the store is kept makes no difference", "statement": "A store that is copied to another directory or another machine (a backup that is restored, a disk that is mounted elsewhere) is served exactly as before: every request gets the same response, and does the same to the content.", "quantifier": "every two directories and what is around them, every content, every list of requests, every schedule of requests served at the same time, every failing system call, every number of crashes and restarts", "why_tests_cant": "all pairs of places, contents, keys, interleavings and failures; a dependence on an absolute path shows only for keys nobody thinks of", "anchors": ["src/storages/fs.rs: FileSystem::new, get_object_path, get_bucket_path, get_metadata_path, list_objects, upload_part"]}
{"id": "C122", "title": "The disk holds only what was asked for", "statement": "After any run of the server, every file below the storage directory was there before with this content or is one that a request may write (the object an upload, a copy or a completion is addressed to, its metadata, an uploaded part), every folder was there before or is a bucket that was created or leads to an uploaded object, and nothing outside the storage directory has changed: no temporary files, no logs, no leftovers under other names.", "quantifier": "every list of HTTP requests, accepted or refused, every schedule, every failing system call, every number of crashes and restarts, every initial file tree, every path", "why_tests_cant": "a stray file shows only under the one failure or interleaving that leaves it, and under a name the test does not look for", "anchors": ["src/storages/fs.rs: put_object, copy_object, create_bucket, upload_part, complete_multipart_upload, save_metadata, get_object_path, get_metadata_path"]}
{"id": "C123", "title": "What is deleted leaves no trace on the disk", "statement": "When objects are uploaded and deleted again, the disk holds what it held before: whatever the uploads were interrupted by, one DELETE of the object restores the folders and files as they were.", "quantifier": "every list of uploads to the place, deletions and reading requests, every spelling of the keys, every schedule, every failing system call, every number of crashes and restarts, every initial file tree", "why_tests_cant": "a remainder is left only by a crash or failure at one particular system call, or by a spelling the test does not use", "anchors": ["src/storages/fs.rs: put_object, delete_object, upload_part, save_metadata"]}
{"id": "C124", "title": "Whatever is sent, only what its method and address name can change", "statement": "A request changes a file or folder of the store only if its method is PUT, POST or DELETE and its address (with the upload id for parts) leads there. This holds for every request: malformed, with repeated, unknown or contradicting headers and parameters, with any body, signed or not, answered, refused or ending in a panic. Requests with any other method leave the disk exactly as it is.", "quantifier": "every list of requests without any restriction on what they contain, every schedule of requests served at the same time, every failing system call, every number of crashes and restarts, every initial file tree", "why_tests_cant": "the requests that would break it are the malformed ones nobody thinks of; there are infinitely many, and each can be interrupted at any system call", "anchors": ["src/service.rs: hyper_call, handle", "src/ops.rs: setup_handlers", "src/ops/*.rs: is_match, extract", "src/storages/fs.rs"]}
{"id": "C125", "title": "A creation or deletion happens at one moment", "statement": "A creation of a bucket, a deletion of an object, a list of the buckets and a question whether a bucket is there take effect at one moment: among the system calls made for the request at most one changes anything, it leaves the disk as if the request had been served there and then, alone, from beginning to end, and a response of success is the one it would have been given there and then, whatever other requests are served at the same time. When all PUT, POST and DELETE requests that are served at the same time are of this kind, they can be put in an order, compatible with the order in which they were answered, in which serving them one by one leaves the same disk and gives the same responses of success.", "quantifier": "all operations of this kind, all requests of any kind beside them, all orders of the system calls, all failures in the calls of the others, all states of the disk", "why_tests_cant": "It is about every interleaving of the system calls of any number of requests and compares each run with runs that did not happen; tests see a few schedules and cannot choose them.", "anchors": ["src/storages/fs.rs: create_bucket, delete_object, head_bucket, get_bucket_location, list_buckets, put_object", "src/service.rs: S3Service::handle"]}
{"id": "C126", "title": "A bucket that is deleted entry by entry disturbs nobody else", "statement": "While the server works through a bucket it is deleting, one entry after the other, with other requests served in between, the other requests get the responses and leave the disk as they do when deletions of buckets happen in one step, some of them several times and only half: what is stored in other buckets stays, an upload answered with success is there, requests about objects elsewhere are served as if they were alone, and creations of buckets and deletions of objects still happen at one moment. The deletion itself is not one moment: in between, some of its objects are there and others are not.", "quantifier": "all lists of requests served at the same time, all ways to interleave the removal of the entries with the system calls of the others, all failures and crashes, all states of the disk", "why_tests_cant": "The removal of a directory tree is a loop inside the standard library whose steps a test cannot interleave with those of other requests at will.", "anchors": ["src/storages/fs.rs: delete_bucket, put_object, create_bucket, delete_object"]}
{"id": "C127", "title": "Who has no key changes nothing, learns nothing and is not noticed", "statement": "When the server knows its users, a request that does not carry the signature of a key it knows is answered with one fixed error response (status 400 or more) that is the same whatever is stored and wherever it is stored. What such requests say, and whether there are any, makes no difference to anybody else: the disk is the same afterwards, and every request that is signed gets the same response, also while they are served at the same time, while the disk fails and over restarts.", "quantifier": "all requests (well-formed or not), all sets of users, all lists of requests served at the same time, all orders of their system calls, all failures and crashes, all states of the disk", "why_tests_cant": "It compares two executions of the server for all possible unsigned or wrongly signed requests, all schedules and all contents of the disk; a test compares a few.", "anchors": ["src/service.rs: S3Service::handle, hyper_call, check_signature, check_post_signature, check_presigned_url, check_header_auth", "src/auth.rs: S3Auth::get_secret_access_key"]}
{"id": "C128", "title": "An upload in parts outlives the server", "statement": "A client sends the parts of an upload over any number of runs of the server, sending a part again when the server died before answering, until each part was answered 200. In a later run the upload is completed with the list of all parts and this is answered 200. Then the object is exactly the parts in order, through all crashes and restarts that follow, and a GET answered 200 has that body, length and ETag (or a body that breaks off), until a request writes or deletes the object or its bucket.", "quantifier": "all lists of parts and their contents, all runs of the server with all requests of other clients beside them, all orders of the system calls, all failures and crashes, all initial states of the disk", "why_tests_cant": "The claim is about executions with any number of crashes at any system call, between and inside the requests of one upload; a test can kill the server at a few moments only.", "anchors": ["src/storages/fs.rs: upload_part, complete_multipart_upload, get_object", "src/ops/upload_part.rs", "src/ops/complete_multipart_upload.rs"]}
{"id": "C129", "title": "The pieces in which files are read, written and copied do not matter to others", "statement": "The server reads files, writes buffers and copies files in loops of short reads and writes, and deletes a bucket entry by entry, while other requests are served in between. A request about objects, with no other request about the same objects beside it, still does what it does alone with each of these in one step: it gets the same response and leaves the same contents, metadata and parts. An upload, copy or completion answered 200 is there, whole, and stays through crashes; a GET answered 200 has the content, ETag and length of the object (or a body that breaks off); files and folders that no request names do not change. (Not so for a GET beside an upload of the same object: its ETag can be that of no content the object has ever had.)", "quantifier": "all ways of taking reads, writes, copies and removals apart, all requests, all orders of the system calls, all failures and crashes, all initial states of the disk", "why_tests_cant": "The number and size of the pieces, and what happens between them, are up to the kernel and the scheduler; a test sees one choice of them.", "anchors": ["src/storages/fs.rs: get_md5_sum, load_metadata, save_metadata, copy_bytes, copy_object, complete_multipart_upload, delete_bucket"]}
{"id": "C130", "title": "A listing is right although directories change while they are read", "statement": "While other requests create and delete objects, folders and buckets, the server reads directories one entry after another, and the operating system promises only that an entry that is there all the time is found exactly once and that each entry found was there at some moment. A listing of objects that is answered 200 then shows every object that was stored at every moment between request and response exactly once, in ascending order of keys, and shows no key that was not stored at some moment in between; a listing of buckets that is answered 200 does the same with buckets. Requests beside the listings get the same responses, and leave the same files, as if no directory changed while it is read. (An object that is replaced meanwhile can be shown twice.)", "quantifier": "all requests served at the same time, all orders of their system calls, all answers of the operating system to reading a directory that POSIX allows, all ways of taking reads, writes, copies and removals apart, all failures, all states of the disk", "why_tests_cant": "What is found in a directory that changes while it is read depends on the file system and the moment of each change; a test sees one answer of one file system.", "anchors": ["src/storages/fs.rs: list_objects, list_objects_v2, list_buckets, delete_object"]}
{"id": "C131", "title": "The server is exactly one abstract machine, whatever the spelling of the keys", "statement": "Uploads, copies, downloads of whole objects and of ranges, HEADs, deletions of one or of several objects, uploads in parts and their completion, and creation, deletion and HEAD of buckets, sent one after the other to a server started on an empty directory, are answered exactly as by a small machine that knows bytes at places, folders, uploaded parts, and metadata recorded per spelling of an address. Keys may be spelled in any way that leads to a place inside the bucket (dots, repeated slashes), and several spellings may lead to the same place. The machine says what happens in the odd cases too: an upload that breaks off leaves what had arrived and no new metadata, a copy of an object onto its own place empties it, a copy or completion into a folder that does not exist is refused, a completion that fails has used up the parts before the failure and left their bytes in the object, a deletion of several objects that meets the same object twice fails after it deleted it, metadata outlive their object and their bucket, a record that cannot be read makes reads fail, an upload with an unknown storage class changes nothing. Requests that read anything else may come in between.", "quantifier": "all sets of addresses of which no place is a folder of another, all histories of requests about them and about buckets, all contents, metadata and broken bodies, all states of the disk that show a state of the machine", "why_tests_cant": "The claim is an equality of behaviour over all histories and all spellings; a test runs a few histories with the usual spellings.", "anchors": ["src/storages/fs.rs: put_object, get_object, head_object, delete_object, delete_objects, copy_object, upload_part, create_multipart_upload, complete_multipart_upload, create_bucket, delete_bucket, head_bucket, get_bucket_location, get_object_path, load_metadata, save_metadata"]}
{"id": "C132", "title": "Over HTTP the server cannot be told from the abstract machine", "statement": "A client sends HTTP requests one after the other to a server started on an empty directory: about objects under any spelling of their keys, about buckets, about uploads in parts; refused requests and requests that only read come in between. Every response to such a request is the one that shows the answer of the abstract machine of C131 after the same changes: status 200 with exactly the bytes asked for, their length, ETag and metadata headers for a download; the ETag for an upload, a part, a copy or a completed upload; the keys that were deleted for a deletion of several objects; otherwise the error document with the code and the status of the error.", "quantifier": "all sets of addresses of which no place is a folder of another, all histories of HTTP requests about them, all header values, contents, metadata, ranges and lists of parts that can be sent, all last requests about them", "why_tests_cant": "The response depends on the whole history and on every layer between the socket and the disk; a test sees one response after one history.", "anchors": ["src/service.rs: handle", "src/ops/: extract, extract_op, try_into_response of each operation", "src/storages/fs.rs: put_object, get_object, head_object, delete_object, delete_objects, copy_object, upload_part, complete_multipart_upload, create_bucket, delete_bucket, head_bucket"]}
{"id": "C133", "title": "Listings show exactly what the abstract machine holds", "statement": "On a server started on an empty directory, after any history of requests about a set of addresses, a listing of a bucket (of either kind) shows exactly the places of that bucket which hold bytes in the abstract machine of C131: each once, under its plain name whatever the spellings it was written under, with the number of its bytes, in ascending order, and only those with the prefix asked for. Records of metadata, uploaded parts, empty folders, deleted objects and other buckets never show. The listing fails exactly when the machine has no such bucket. ListBuckets names exactly the buckets of the machine.", "quantifier": "all sets of addresses of which no place is a folder of another, all histories of requests about them, all buckets, all prefixes", "why_tests_cant": "It says that nothing else is ever shown, after every history; a test compares one listing after one history with what its author expects.", "anchors": ["src/storages/fs.rs: list_objects, list_objects_v2, list_buckets, put_object, copy_object, complete_multipart_upload, upload_part, delete_object, delete_objects, delete_bucket"]}
{"id": "C134", "title": "Clients served at the same time see the abstract machine", "statement": "A history consists of rounds, in each of which either one request is served alone (of any kind the abstract machine of C131 knows) or any number of requests are served at the same time, cut into system calls and into pieces of reads and writes that are interleaved in any way. If, in a round of the second kind, those that write or delete are about different objects and parts, with plain keys (copies and completed uploads into folders that exist, other uploads anywhere), and are all answered, then the storage afterwards shows the state of the machine that has done all requests of the round one after the other, in any order. Every request in such a history - in a round of the second kind every one that writes, and every one that reads something the others leave alone - gets the response that shows the answer of the machine. Requests that only read may be served in the same rounds, whatever they read.", "quantifier": "all histories of rounds from an empty storage directory, all numbers of requests in a round, all interleavings, all ways to cut the calls into pieces, all orders in which the machine does the requests of a round", "why_tests_cant": "It ranges over all interleavings and all histories of them, and a test runs few interleavings, which it can hardly choose.", "anchors": ["src/storages/fs.rs: get_object, put_object, copy_object, delete_object, delete_objects, upload_part, complete_multipart_upload, create_bucket, delete_bucket, head_object", "src/service.rs: S3Service::hyper_call"]}
{"id": "C135", "title": "Uploads at the same time into folders that are not there yet", "statement": "A whole tree of objects may be uploaded by any number of PutObject requests at the same time, into a bucket or folders that do not exist yet. Each upload gets the response it would get alone, and leaves the object and metadata it would leave alone, whichever of the requests makes the shared folders first and however the calls and pieces of writes are interleaved; in particular an upload that is answered, whose body arrives unbroken and whose own calls do not fail, succeeds, with the ETag of its body, and its body is the object. Other requests may be served at the same time if they are about other objects and do not remove the bucket. This needs that at the beginning no file stands in the place of one of the folders, and that their names fit into file names.", "quantifier": "all numbers of requests, all interleavings, all ways to cut calls into pieces, all states of the folders at the beginning and all moments at which others make them", "why_tests_cant": "The race is between the check whether a folder exists and its creation, once per folder on the way and per request; a test hits few of the interleavings and cannot choose them.", "anchors": ["src/storages/fs.rs: put_object (create_dir_all of the parent folder)"]}
{"id": "C136", "title": "What is certain after requests have broken off", "statement": "Requests are served one after another or several at a time, the disk may fail and the server may be stopped and started again at any moment, any number of times. Then everything the storage holds is what a server on which all requests had succeeded would hold, except for what is in doubt: the objects, metadata, parts and new folders that those requests were about which got no answer or whose own disk calls failed. Sending the upload of an object again (or of a part, or a deletion, or the creation or deletion of a bucket) settles what it is about; copies, completed uploads and deletions of several objects pass a doubt on only from what they read. Every request that depends on nothing in doubt gets exactly the response it would get if nothing had ever broken off.", "quantifier": "all histories of rounds of requests, all interleavings and moments at which the server is stopped, all failures of the disk, all objects and buckets", "why_tests_cant": "The claim is about everything that a crash does not touch, after every possible crash at every moment of every history; a test stops the server at a few moments and looks at a few objects.", "anchors": ["src/storages/fs.rs: put_object, copy_object, delete_object, delete_objects, upload_part, complete_multipart_upload, create_bucket, delete_bucket", "src/service.rs: S3Service::hyper_call"]}
{"id": "C137", "title": "One history explains everything that is seen after a break, listings included", "statement": "Requests are served one after another or several at a time, from an empty storage directory; the disk may fail and the server may be stopped and started again at any moment, any number of times. Then there is one content of the storage - the one in which all requests have been done, except for what C136 says is in doubt - that explains at the same time everything clients can see: both kinds of listings of every bucket, the list of buckets, and the responses to all requests about objects, parts and buckets. In particular a bucket about which nothing is in doubt is listed exactly as if nothing had ever broken off; and when all requests have been answered without failures, also requests at the same time, all listings show exactly what was stored.", "quantifier": "all histories of rounds of requests, all interleavings and moments at which the server is stopped, all failures of the disk, all buckets, all prefixes", "why_tests_cant": "It says that different views of the storage never contradict each other after any crash in any history; a test compares a few views after a few crashes.", "anchors": ["src/storages/fs.rs: list_objects, list_objects_v2, list_buckets, get_object, head_object, put_object, copy_object, delete_object, delete_objects, upload_part, complete_multipart_upload, create_bucket, delete_bucket", "src/service.rs: S3Service::hyper_call"]}
{"id": "C138", "title": "Folder keys and objects together", "statement": "Keys that end with `/` may be put and deleted at any time between other requests. A PUT of such a key that announces an empty body makes the folder and all folders on the way to it, is answered without an ETag, and changes no object; later copies and completed uploads can use the folder. A DELETE of the key removes the folder exactly when no object and no folder is inside; when something is inside it is answered with success too and nothing changes; when there is no such folder it fails. Every other request of the history is answered exactly as by the abstract machine of C131 with these folders, and listings never show a folder.", "quantifier": "all histories that mix requests about any set of objects, folder keys and readings of any kind; all states reached from an empty directory", "why_tests_cant": "Whether a folder is there, and is empty, depends on the whole history of uploads, copies, deletions and folder requests; tests try a few sequences.", "anchors": ["src/storages/fs.rs: put_object, delete_object, copy_object, complete_multipart_upload, list_objects"]}
{"id": "C139", "title": "A folder is not an object", "statement": "When a folder key (a key that ends with `/`) is given where the key of an object is expected: a HEAD shows an existing folder as an object that has the length the file system tells for directories and no metadata, and answers NoSuchKey when there is no folder. A GET never succeeds: it answers InvalidRequest when its Range header cannot be read, NoSuchKey without the folder, InvalidRange when the range lies outside of that length, and otherwise InternalError. A copy from a folder key fails. A DeleteObjects that lists folder keys deletes the objects before the first existing folder in the list and then fails; without an existing folder in its list it is answered like any other. None of these requests makes, changes or removes a folder, a record of metadata or an uploaded part. A copy onto an existing folder, and the completion of an upload there, fail and change nothing. When the path library keeps trailing slashes the same holds for folder keys without a folder; when it does not, the completion of an upload at such a key does exactly what it does at the key without the slash. All this holds at every point of a history that also makes and deletes folders and objects, and the client sees it in the HTTP responses.", "quantifier": "all histories that mix requests about any set of objects, folder keys put and deleted, and folder keys used as objects; all states reached from an empty directory; all ranges, lists of keys and lengths of directories", "why_tests_cant": "Whether a folder, an object or nothing is there depends on the whole history, and DeleteObjects on the order of its list; tests try a few sequences.", "anchors": ["src/storages/fs.rs: get_object, head_object, copy_object, delete_objects, complete_multipart_upload"]}
{"id": "C140", "title": "Folders that several clients make at once", "statement": "PUTs of folder keys (keys that end with `/`) never spoil anything, not even when any number of them run at the same time, when the disk fails, and when the server is stopped at any moment: all objects, records of metadata, uploaded parts and folders that were there are still there, and the only new things are folders that were asked for and the folders on the way to them, each in its parent. A success that was answered means that the folder is there, with all folders on the way. A PUT whose own calls do not fail gets the answer it would get alone, even when others make the same folders at the same moment. When nothing fails and all are answered, all have success and all folders are there. Whatever happened, to send them again is enough. A DELETE of a folder key, served alone, that is cut off or meets a failing disk has removed the folder, which was empty, or changed nothing; an answered success tells the truth.", "quantifier": "all numbers of PUTs of folder keys, all orders of their system calls, all failures of the disk, all moments at which the server stops; all states of the tree reached by the histories of C138", "why_tests_cant": "Two requests that make the same directories race on every level of the path, in every order; tests meet a few of the orders, and no failures of the disk.", "anchors": ["src/storages/fs.rs: put_object, delete_object", "async_fs::create_dir_all"]}
{"id": "C141", "title": "Folders made and removed beside uploads", "statement": "PUTs and DELETEs of folder keys (keys that end with `/`) never cost an object anything, whatever runs at the same time, when the disk fails, and when the server is stopped at any moment: an object that no request writes or deletes stays, with its content and its metadata, also when the folder that holds it, or one of its own name, is asked for or removed at the same time. An upload, a copy, or the completion of an upload in parts that was answered with success is there, with exactly its body (the content of its source, its parts in order), also when the folders on its way were made and removed while it ran, and whatever runs of the server follow; GET and HEAD then answer it. What does not hold: that an upload is answered as if it were alone. A DELETE of a folder can remove the folder that the upload has just made, before the upload has put its file there; the upload then answers InternalError, and nothing is stored.", "quantifier": "all sets of requests at the same time (folder keys anywhere, other requests on other objects), all orders of their system calls, all failures of the disk, all moments at which the server stops, any number of runs of the server, all well-formed trees", "why_tests_cant": "The removal of a folder races with every step of an upload into it: the making of the folder, the creation of the file, the write, the record of the metadata. Tests meet a few of the orders and no failures of the disk.", "anchors": ["src/storages/fs.rs: put_object, copy_object, complete_multipart_upload, delete_object", "async_fs::remove_dir", "async_fs::create_dir_all"]}
{"id": "C142", "title": "Folders do not disturb work on objects that are there", "statement": "A request that reads, overwrites or copies objects that are there, or sends a part of an upload or completes one onto an object that is there, is answered as if it were alone, and leaves its objects, their metadata and its parts as if it were alone, while any number of other requests make and remove folders anywhere, also the folders that hold these objects and folders of their own names, and while further requests are about other objects. If calls of the disk fail, it is answered and leaves its objects as it would alone with the same failures. The same holds for HTTP requests and their responses. An upload, a copy or a completion that has been answered 200 over HTTP has its effect, and keeps it, beside folder requests, also if the object was not there before.", "quantifier": "all requests about objects that are there other than deletions, all sets of other requests about folder keys or other objects, all orders of the system calls, all failures of the disk, all well-formed trees; for answers of 200, any number of runs of the server afterwards", "why_tests_cant": "Every call of the request can meet any state of the folders that the others leave, and a folder request may run between any two of its calls. Tests see a few orders; the claim is that none of them shows in the answer.", "anchors": ["src/storages/fs.rs: get_object, head_object, put_object, copy_object, upload_part, complete_multipart_upload, delete_object", "src/service.rs: S3Service::hyper_call", "async_fs::remove_dir", "async_fs::create_dir_all"]}
{"id": "C143", "title": "Deletions beside folders", "statement": "While other requests make and remove folders anywhere, also the folder that holds an object and a folder of its own name, and while further requests are about other objects: a DELETE of an object, if its own calls do not fail, is answered 204 if and only if the object was there. If anything fails, or the server is stopped at any moment: an object whose deletion was answered 204 was there and is gone for good, and no later GET of it succeeds, also when a folder takes its name. A request to delete several different objects that are there deletes and reports all of them; if calls fail, exactly those that it reports are gone, and the others are as they were.", "quantifier": "all objects with plain keys, all sets of other requests about folder keys or other objects, all orders of the system calls, all failures of the disk, any number of runs of the server afterwards, all well-formed trees", "why_tests_cant": "A folder can be removed or made between any two calls, and the place of a deleted object can be taken by a folder before the deletion has been answered. Tests meet few of the orders and hardly any failure.", "anchors": ["src/storages/fs.rs: delete_object, delete_objects, put_object, get_object", "src/service.rs: S3Service::hyper_call", "async_fs::remove_dir", "async_fs::create_dir_all"]}
{"id": "C144", "title": "Making folders disturbs nobody", "statement": "While other requests make folders, also those on the way to an object but not one of its own name or below it, and while further requests are about other objects: an upload for which there is room, whose own calls do not fail, is always answered 200 with the ETag of its body, also into folders that were not there, and the object is there with its body and metadata, also after whatever is done with folders and other objects later. Any request about objects whose folders are there, deletions included, is answered exactly as if it were alone, and has the same effect, with the faults of its own calls if there are any.", "quantifier": "all requests about objects with plain keys, all sets of other requests that make folders elsewhere or are about other objects, all orders of the system calls, all failures of the disk, any number of runs of the server afterwards, all well-formed trees", "why_tests_cant": "Every call of the upload, which makes the same directories itself, can come before, between or after the calls of those who make folders. Tests meet few of these orders; a race on a directory that just came into being is hardly ever seen.", "anchors": ["src/storages/fs.rs: put_object, get_object, delete_object, copy_object, complete_multipart_upload", "src/service.rs: S3Service::hyper_call", "async_fs::create_dir_all"]}
{"id": "C145", "title": "A folder that is made is there", "statement": "A PUT of a folder key (a key that ends in a slash, with an empty body) whose own calls do not fail, for which no file stands in the way, is answered 200 whatever others do at the same time, as long as they do not put an object where the folder or one it is in has its place and do not delete these folders; others may make the same folders and write and delete objects in them. Even on a failing disk and with files in the way, when it is answered 200 and nobody deletes the folder or its bucket, the folder is there. A folder that is there stays there, whatever requests run, fail or are cut off, until somebody deletes exactly this folder or its bucket: deletions of the folders it is in, of the objects in it, and requests about an object of its name leave it.", "quantifier": "all folders with plain names, all sets of other requests that do not remove the folder, all orders of the system calls, all failures of the disk, any number of runs of the server afterwards, all well-formed trees", "why_tests_cant": "The directories on the way are made one by one, and others may make them between any two calls. A test sees few of these orders, and no test can show that no request, in no order, ever removes a folder that was reported as made.", "anchors": ["src/storages/fs.rs: put_object, delete_object, delete_objects, delete_bucket", "src/service.rs: S3Service::hyper_call", "async_fs::create_dir_all"]}
{"id": "C146", "title": "A client may send the same request again and again", "statement": "A client sends an HTTP request, and the server dies or the disk fails while it is carried out, any number of times, while others read at the same time. When the request is a PUT of an object, of a folder key or of a part, or a copy to another place, that would have been answered with success at first, then the same request is afterwards given the very same response, and what is stored is what would have been stored without the attempts. When it deletes an object, several objects or a bucket, or makes a bucket, then what is stored after it is what would have been stored without the attempts, although the answer may be another one (a bucket that is already gone is answered 500, one that is already there 409).", "quantifier": "all requests of these kinds at plain keys, all numbers of attempts, each cut off after any number of system calls and with any failures of the disk, including calls that fail halfway and calls that are carried out although they report an error, all well-formed trees", "why_tests_cant": "A request can be broken off after every system call and inside each of them, and the attempts can leave half-written files and metadata on which the next attempt starts. A test tries few such sequences; the claim is about all of them, of every length.", "anchors": ["src/storages/fs.rs: put_object, upload_part, copy_object, delete_object, delete_objects, delete_bucket, create_bucket", "src/service.rs: S3Service::hyper_call"]}
