{
 "claims": [
  {
   "property": "C01",
   "status": "proved",
   "theorems": [
    "S3.C01_path_addressing",
    "S3.C01_address_unique",
    "S3.C01_refusal_reason"
   ],
   "note": ""
  },
  {
   "property": "C02",
   "status": "proved",
   "theorems": [
    "S3.C02_bucket_name_rule"
   ],
   "note": ""
  },
  {
   "property": "C03",
   "status": "proved",
   "theorems": [
    "S3.C03_root_confinement",
    "S3.C03_root_confinement_crash"
   ],
   "note": "All operations, every input, also at every crash point; unread part as non-interference."
  },
  {
   "property": "C04",
   "status": "partial",
   "theorems": [
    "S3.C04_bucket_isolation_partial",
    "S3.C04_bucket_isolation_fails"
   ],
   "note": "False of the code for keys with .. components (witness proved); proved for relative keys without .. components."
  },
  {
   "property": "C05",
   "status": "partial",
   "theorems": [
    "S3.C05_distinct_storage_partial",
    "S3.C05_distinct_storage_fails"
   ],
   "note": "False of the code (d//x and d/x share a file, witness proved); proved for plain keys."
  },
  {
   "property": "C06",
   "status": "proved",
   "theorems": [
    "S3.C06_metadata_storage"
   ],
   "note": "All buckets, keys and upload ids."
  },
  {
   "property": "C07",
   "status": "proved",
   "theorems": [
    "S3.C07_range_grammar"
   ],
   "note": ""
  },
  {
   "property": "C08",
   "status": "partial",
   "theorems": [
    "S3.C08_ranged_get_partial",
    "S3.C08_ranged_get_fails"
   ],
   "note": "every successful GET delivers exactly the selected bytes; suffix ranges longer than the object are refused (negation proved)"
  },
  {
   "property": "C09",
   "status": "partial",
   "theorems": [
    "S3.C09_content_length_partial",
    "S3.C09_content_length_fails"
   ],
   "note": "holds without Range, for open and suffix ranges and closed ranges inside the object; false for closed ranges ending after the object (negation proved)"
  },
  {
   "property": "C10",
   "status": "partial",
   "theorems": [
    "S3.C10_unsatisfiable_ranges_partial",
    "S3.C10_unsatisfiable_ranges_fails"
   ],
   "note": "exact characterisation of refused ranges; satisfiable suffix ranges are refused (negation proved)"
  },
  {
   "property": "C11",
   "status": "proved",
   "theorems": [
    "S3.C11_stream_content"
   ],
   "note": ""
  },
  {
   "property": "C12",
   "status": "partial",
   "theorems": [
    "S3.C12_read_your_write_partial",
    "S3.C12_read_your_write_fails"
   ],
   "note": "Proved for every key not ending in '/', objects below 2^63 bytes and readable metadata; the full property is false of the code for folder keys (negation proved)."
  },
  {
   "property": "C13",
   "status": "partial",
   "theorems": [
    "S3.C13_etag_partial",
    "S3.C13_etag_fails"
   ],
   "note": "PutObject, UploadPart, CompleteMultipartUpload, GetObject, CopyObject; refuted for a copy whose source aliases the destination's metadata file and for folder keys"
  },
  {
   "property": "C14",
   "status": "partial",
   "theorems": [
    "S3.C14_map_refinement_partial",
    "S3.C14_from_empty_partial",
    "S3.C14_map_refinement_fails",
    "S3.C14_copy_into_new_folder_fails"
   ],
   "note": "For every history of requests on a prefix-free set of plain addresses (mixed with arbitrary requests elsewhere) the answers are those of a map-based store, from any represented state and from an empty directory. Excluded: self-copy and copy into a missing folder (refuted by witnesses), broken bodies (C29)."
  },
  {
   "property": "C15",
   "status": "partial",
   "theorems": [
    "S3.C15_frame_partial",
    "S3.C15_frame_fails"
   ],
   "note": "False for aliasing keys (witness proved); proved for plain keys."
  },
  {
   "property": "C16",
   "status": "partial",
   "theorems": [
    "S3.C16_deleted_gone_partial",
    "S3.C16_deleted_gone_fails"
   ],
   "note": "Proved for keys not ending in '/': GET and HEAD answer NoSuchKey and no listing shows the key. False for a non-empty folder key, which DELETE answers with success without removing anything."
  },
  {
   "property": "C17",
   "status": "partial",
   "theorems": [
    "S3.C17_delete_idempotent_partial",
    "S3.C17_delete_idempotent_fails"
   ],
   "note": "The code answers InternalError to a DELETE of an absent key; the partial theorem shows the state is unchanged by it."
  },
  {
   "property": "C18",
   "status": "partial",
   "theorems": [
    "S3.C18_copy_partial",
    "S3.C18_copy_fails"
   ],
   "note": "Proved for different source and destination; a self-copy empties the object."
  },
  {
   "property": "C19",
   "status": "partial",
   "theorems": [
    "S3.C19_metadata_partial",
    "S3.C19_metadata_fails"
   ],
   "note": "Proved for a PUT with metadata, or without over an object that has none; false for a PUT without metadata over stale metadata (negation proved)."
  },
  {
   "property": "C20",
   "status": "partial",
   "theorems": [
    "S3.C20_listing_partial",
    "S3.C20_listing_fails"
   ],
   "note": "Proved for stored keys in plain form; an object put under an alias key such as d//x is not listed under it."
  },
  {
   "property": "C21",
   "status": "proved",
   "theorems": [
    "S3.C21_list_buckets"
   ],
   "note": ""
  },
  {
   "property": "C22",
   "status": "proved",
   "theorems": [
    "S3.C22_create_bucket"
   ],
   "note": "the lifecycle of a bucket under CreateBucket, HeadBucket and listing, for every legal name and tree"
  },
  {
   "property": "C23",
   "status": "partial",
   "theorems": [
    "S3.C23_delete_bucket_partial",
    "S3.C23_delete_bucket_fails"
   ],
   "note": "removes exactly the bucket and its content; refuted: a bucket that still holds objects is not refused"
  },
  {
   "property": "C24",
   "status": "partial",
   "theorems": [
    "S3.C24_multipart_partial",
    "S3.C24_multipart_fails"
   ],
   "note": "any order and repetition of uploads with other requests in between; refuted for keys in a directory that does not exist yet"
  },
  {
   "property": "C25",
   "status": "partial",
   "theorems": [
    "S3.C25_refused_complete_partial",
    "S3.C25_refused_complete_fails"
   ],
   "note": "other objects and unlisted parts unchanged, no part's bytes lost; refuted: the named object and listed parts may change"
  },
  {
   "property": "C26",
   "status": "partial",
   "theorems": [
    "S3.C26_delete_objects_partial",
    "S3.C26_delete_objects_fails"
   ],
   "note": "distinct plain keys that name no directory; refuted for duplicates"
  },
  {
   "property": "C27",
   "status": "partial",
   "theorems": [
    "S3.C27_head_get_partial",
    "S3.C27_head_get_fails"
   ],
   "note": "HEAD and GET agree unless the key names a directory, where they differ (negation proved)"
  },
  {
   "property": "C28",
   "status": "proved",
   "theorems": [
    "S3.C28_read_ops_pure"
   ],
   "note": ""
  },
  {
   "property": "C29",
   "status": "partial",
   "theorems": [
    "S3.C29_failed_put_partial",
    "S3.C29_failed_put_fails"
   ],
   "note": "Proved: after a refused PUT the object is the old one or a prefix of the new body, and unchanged when the error is not InternalError; the full property is false (negation proved)."
  },
  {
   "property": "C30",
   "status": "partial",
   "theorems": [
    "S3.C30_missing_bucket_partial",
    "S3.C30_missing_bucket_fails"
   ],
   "note": "The property is false: PUT creates a missing bucket (negation proved). Proved: with an existing bucket, no bucket appears or disappears."
  },
  {
   "property": "C31",
   "status": "proved",
   "theorems": [
    "S3.C31_create_race",
    "S3.C31_create_race_winner"
   ],
   "note": "all schedules, any number of concurrent requests"
  },
  {
   "property": "C32",
   "status": "proved",
   "theorems": [
    "S3.C32_disjoint_puts",
    "S3.C32_disjoint_puts_succeed"
   ],
   "note": "all schedules, any number of concurrent requests of any kind on other addresses; success when there is room"
  },
  {
   "property": "C33",
   "status": "partial",
   "theorems": [
    "S3.C33_torn_reads_partial",
    "S3.C33_torn_reads_fails"
   ],
   "note": "readers among any requests on other addresses; refuted for an overwrite of the same address"
  },
  {
   "property": "C34",
   "status": "partial",
   "theorems": [
    "S3.C34_crash_in_put_partial",
    "S3.C34_crash_in_put_fails"
   ],
   "note": "At every crash point: old content or a prefix of the new body, and all other objects intact; the full property is false (negation proved)."
  },
  {
   "property": "C35",
   "status": "proved",
   "theorems": [
    "S3.C35_crash_in_complete"
   ],
   "note": "every crash point, every list of parts"
  },
  {
   "property": "C36",
   "status": "proved",
   "theorems": [
    "S3.C36_no_anonymous",
    "S3.C36_access_denied",
    "S3.C36_form_invalid"
   ],
   "note": ""
  },
  {
   "property": "C37",
   "status": "proved",
   "theorems": [
    "S3.C37_only_signed",
    "S3.C37_step_signed"
   ],
   "note": "the signature is specified in Spec/SigV4.lean; the canonical URI is what the server uses (the raw path encoded), see C38"
  },
  {
   "property": "C38",
   "status": "partial",
   "theorems": [
    "S3.C38_escaped_path_fails",
    "S3.C38_signed_accepted_partial"
   ],
   "note": "false in full: the raw path is encoded a second time; proved for paths without % and signed headers that occur once"
  },
  {
   "property": "C39",
   "status": "proved",
   "theorems": [
    "S3.C39_canonical_request",
    "S3.C39_presigned_request"
   ],
   "note": "methods without line feeds, header names without line feeds and colons, values without line feeds (HTTP guarantees all)"
  },
  {
   "property": "C40",
   "status": "proved",
   "theorems": [
    "S3.C40_signature_protects"
   ],
   "note": "collision stated for the concrete texts of the two requests"
  },
  {
   "property": "C41",
   "status": "proved",
   "theorems": [
    "S3.C41_unknown_key",
    "S3.C41_header_not_signed_up",
    "S3.C41_presigned_not_signed_up",
    "S3.C41_form_not_signed_up"
   ],
   "note": ""
  },
  {
   "property": "C42",
   "status": "proved",
   "theorems": [
    "S3.C42_unsigned_served",
    "S3.C42_credentials_refused",
    "S3.C42_header_not_supported",
    "S3.C42_presigned_not_supported",
    "S3.C42_form_not_supported"
   ],
   "note": ""
  },
  {
   "property": "C43",
   "status": "partial",
   "theorems": [
    "S3.C43_expiry_fails",
    "S3.C43_presigned_protects_partial"
   ],
   "note": "false: no clock is consulted; proved that the parameters (expiry included) are covered by the signature"
  },
  {
   "property": "C44",
   "status": "partial",
   "theorems": [
    "S3.C44_unsigned_header_fails",
    "S3.C44_signed_headers_partial"
   ],
   "note": "false: an unsigned x-amz-copy-source turns a signed upload into a copy; proved for the headers listed as signed"
  },
  {
   "property": "C45",
   "status": "partial",
   "theorems": [
    "S3.C45_policy_fails",
    "S3.C45_policy_signed_partial"
   ],
   "note": "false: no condition of the policy is checked; proved that the policy text is authenticated"
  },
  {
   "property": "C46",
   "status": "proved",
   "theorems": [
    "S3.C46_query_order"
   ],
   "note": ""
  },
  {
   "property": "C47",
   "status": "proved",
   "theorems": [
    "S3.C47_fragmentation"
   ],
   "note": "Decoded bytes and verdict depend only on the received bytes and on whether the body stream ended with an error."
  },
  {
   "property": "C48",
   "status": "proved",
   "theorems": [
    "S3.C48_round_trip",
    "S3.C48_chunked_put"
   ],
   "note": "For every signature function with the shape of the real one (64 bytes, no line feed), every list of chunks, size text and fragmentation."
  },
  {
   "property": "C49",
   "status": "proved",
   "theorems": [
    "S3.C49_authentic"
   ],
   "note": ""
  },
  {
   "property": "C50",
   "status": "partial",
   "theorems": [
    "S3.C50_truncation_partial",
    "S3.C50_put_refused_partial",
    "S3.C50_truncation_fails"
   ],
   "note": "Truncation inside chunk data or its line end is refused; at a chunk boundary or inside a header line the code accepts the truncated body (negation proved)."
  },
  {
   "property": "C51",
   "status": "proved",
   "theorems": [
    "S3.C51_file_end",
    "S3.beforeFirst_of_occurs"
   ],
   "note": "For every boundary, header remainder and fragmentation."
  },
  {
   "property": "C52",
   "status": "partial",
   "theorems": [
    "S3.C52_form_fragmentation_partial",
    "S3.C52_form_fragmentation_fails"
   ],
   "note": "Holds when no fragment boundary lies inside the first line; false otherwise (negation proved)."
  },
  {
   "property": "C53",
   "status": "proved",
   "theorems": [
    "S3.C53_field_lookup"
   ],
   "note": ""
  },
  {
   "property": "C54",
   "status": "proved",
   "theorems": [
    "S3.C54_header_lookup",
    "S3.C54_query_lookup",
    "S3.C54_signed_headers"
   ],
   "note": ""
  },
  {
   "property": "C55",
   "status": "partial",
   "theorems": [
    "S3.C55_operation",
    "S3.C55_operation_partial",
    "S3.C55_not_supported",
    "S3.C55_subresource_fails"
   ],
   "note": "Every admitted request of the operation table runs its operation (complete); soundness holds for requests without repeated headers/parameters that ask for an operation the server has; false for other sub-resource requests (witnesses)."
  },
  {
   "property": "C56",
   "status": "partial",
   "theorems": [
    "S3.C56_panic_partial",
    "S3.C56_panic_fails"
   ],
   "note": "Exact characterisation under any schedule: panic iff admitted PUT at the root with partNumber and uploadId; the property itself is false (witness)."
  },
  {
   "property": "C57",
   "status": "partial",
   "theorems": [
    "S3.C57_part_partial",
    "S3.C57_part_copy_fails"
   ],
   "note": "Holds without x-amz-copy-source (plain keys, upload id without slash); false with it (witness)."
  },
  {
   "property": "C58",
   "status": "partial",
   "theorems": [
    "S3.C58_code_round_trip",
    "S3.C58_code_strings_distinct",
    "S3.C58_parse_exact",
    "S3.C58_success_status_witness",
    "S3.C58_error_status_partial"
   ],
   "note": "round trip holds for all codes; the status claim is false for ObjectNotInActiveTierError (200), proved as a witness"
  },
  {
   "property": "C59",
   "status": "proved",
   "theorems": [
    "S3.C59_decode_encode",
    "S3.C59_url_decode_encode",
    "S3.C59_encode_injective",
    "S3.C59_encode_alphabet",
    "S3.C59_encode_unreserved"
   ],
   "note": ""
  },
  {
   "property": "C60",
   "status": "proved",
   "theorems": [
    "S3.C60_amz_date_grammar",
    "S3.C60_amz_date_round_trip"
   ],
   "note": ""
  },
  {
   "property": "C61",
   "status": "proved",
   "theorems": [
    "S3.C61_authorization_grammar",
    "S3.C61_authorization_unique",
    "S3.C61_scope_date"
   ],
   "note": "the date part of the grammar theorem is the code's own check; C61_scope_date characterises it for digit strings"
  },
  {
   "property": "C62",
   "status": "proved",
   "theorems": [
    "S3.C62_copy_source",
    "S3.C62_copy_source_unique"
   ],
   "note": ""
  },
  {
   "property": "C63",
   "status": "proved",
   "theorems": [
    "S3.C63_access_key_store",
    "S3.C63_unknown_iff"
   ],
   "note": ""
  },
  {
   "property": "C64",
   "status": "partial",
   "theorems": [
    "S3.C64_metadata_partial",
    "S3.C64_header_metadata_partial",
    "S3.C64_form_metadata_fails"
   ],
   "note": "Holds for header metadata and for form metadata that can be sent in headers; false for form metadata with control characters, and for uploads without metadata over old metadata (C19_metadata_fails)."
  },
  {
   "property": "C65",
   "status": "partial",
   "theorems": [
    "S3.C65_xml_text_partial",
    "S3.C65_no_markup",
    "S3.C65_carriage_return_witness",
    "S3.C65_control_witness"
   ],
   "note": "false for texts with CR or control characters (witnesses)"
  },
  {
   "property": "C66",
   "status": "proved",
   "theorems": [
    "S3.C66_form_round_trip"
   ],
   "note": "httparse::parse_headers is modelled from memory (no sources or documentation at hand)."
  },
  {
   "property": "C67",
   "status": "proved",
   "theorems": [
    "S3.C67_operation_errors"
   ],
   "note": "Any schedule of concurrent operations."
  },
  {
   "property": "C68",
   "status": "proved",
   "theorems": [
    "S3.C68_folder_content",
    "S3.C68_folder_created"
   ],
   "note": "refusal for every key ending in '/'; success for keys with plain components"
  },
  {
   "property": "C69",
   "status": "partial",
   "theorems": [
    "S3.C69_declaration_partial",
    "S3.C69_refused_partial",
    "S3.C69_declared_checksum_fails"
   ],
   "note": "the grammar and the refusal are proved; the code never compares a declared checksum with the body, C69_declared_checksum_fails is a witness"
  },
  {
   "property": "C70",
   "status": "partial",
   "theorems": [
    "S3.C70_same_object_partial",
    "S3.C70_same_object_fails"
   ],
   "note": "every byte is a hole or from one of the bodies at the same place, the length is bounded, the former content is gone, ETags are right; that the object is one of the bodies is false of the code, witnesses bbaa and a hole of zeros"
  },
  {
   "property": "C71",
   "status": "partial",
   "theorems": [
    "S3.C71_listing_partial",
    "S3.C71_listing_v2_partial",
    "S3.C71_listing_fails"
   ],
   "note": "Proved for keys, delimiters and encoding types without control characters and ]]>; false otherwise (a control character makes the document ill-formed, a carriage return is shown as a line feed): C71_listing_fails. Dot keys as in C20."
  },
  {
   "property": "C72",
   "status": "proved",
   "theorems": [
    "S3.C72_error_documents",
    "S3.C72_error_document"
   ],
   "note": "For any requests under any schedule. Messages of errors are assumed to have no control characters."
  },
  {
   "property": "C73",
   "status": "partial",
   "theorems": [
    "S3.C73_delete_objects_partial",
    "S3.C26_delete_objects_fails"
   ],
   "note": "Missing: keys with control characters or ]]>, repeated keys (false: C26_delete_objects_fails), keys with dot components or slashes at the ends, keys that name directories."
  },
  {
   "property": "C74",
   "status": "partial",
   "theorems": [
    "S3.C74_create_partial",
    "S3.C74_complete_partial",
    "S3.C74_create_fails"
   ],
   "note": "Contents proved for keys without control characters; the root element of CreateMultipartUpload is not the one of the S3 API: C74_create_fails."
  },
  {
   "property": "C75",
   "status": "partial",
   "theorems": [
    "S3.C75_put_get_partial",
    "S3.C75_upload_part",
    "S3.C75_head_etag_fails"
   ],
   "note": "HEAD has no ETag header: C75_head_etag_fails. Missing: keys with dot components or slashes at the ends, stale metadata (C19, C64), contents larger than i64. C75_upload_part: upload ids without a slash."
  },
  {
   "property": "C76",
   "status": "proved",
   "theorems": [
    "S3.C76_list_buckets"
   ],
   "note": "The storage root is a directory of a well-formed file tree."
  },
  {
   "property": "C77",
   "status": "proved",
   "theorems": [
    "S3.C77_chunks_decoded",
    "S3.C77_streaming_put",
    "S3.C77_accepted_partial"
   ],
   "note": "the property is about uploads answered 200; that such requests are admitted is proved under the hypotheses of C38 (C77_accepted_partial)"
  },
  {
   "property": "C78",
   "status": "proved",
   "theorems": [
    "S3.C78_chunks_protected"
   ],
   "note": "leaving out the last chunks is not excluded by the signatures (the client's chunks may be cut at the end); see C49"
  },
  {
   "property": "C79",
   "status": "proved",
   "theorems": [
    "S3.C79_body_kept",
    "S3.C79_put_stored",
    "S3.C79_form_stored"
   ],
   "note": ""
  },
  {
   "property": "C80",
   "status": "proved",
   "theorems": [
    "S3.C80_isolation",
    "S3.C80_folders_needed"
   ],
   "note": "The condition on folders is part of the statement; C80_folders_needed shows that it cannot be dropped."
  },
  {
   "property": "C81",
   "status": "proved",
   "theorems": [
    "S3.C81_parallel_parts"
   ],
   "note": ""
  },
  {
   "property": "C82",
   "status": "partial",
   "theorems": [
    "S3.C82_get_during_delete_partial",
    "S3.C82_get_during_delete_fails"
   ],
   "note": "Never a part of the object; but InternalError instead of NoSuchKey is possible, shown by C82_get_during_delete_fails."
  },
  {
   "property": "C83",
   "status": "proved",
   "theorems": [
    "S3.C83_bad_address",
    "S3.C83_fault_or_address",
    "S3.C83_bad_header"
   ],
   "note": "at the level of HTTP responses"
  },
  {
   "property": "C84",
   "status": "proved",
   "theorems": [
    "S3.C84_part_header",
    "S3.C84_malformed_part"
   ],
   "note": "fragmentations that split the first line are excluded in the statement (see C52)"
  },
  {
   "property": "C85",
   "status": "proved",
   "theorems": [
    "S3.C85_writer",
    "S3.C85_reader",
    "S3.C85_round_trip",
    "S3.C85_metadata_file",
    "S3.C85_metadata_read"
   ],
   "note": "serde_json is modelled from memory (no sources or documentation at hand) (crate sources are not available here). realExt_law discharges the hypothesis MetaLaw of C12, C14, C19, C64, C75."
  },
  {
   "property": "C86",
   "status": "partial",
   "theorems": [
    "S3.C86_listing_among_others_partial",
    "S3.C86_listing_during_delete_fails",
    "S3.C86_folder_listed_fails",
    "S3.C86_listing_not_a_moment"
   ],
   "note": "The contents of a successful listing are proved for every interleaving; that it succeeds is false (witness: an object deleted between readdir and stat)."
  },
  {
   "property": "C87",
   "status": "proved",
   "theorems": [
    "S3.C87_http_date_unique",
    "S3.C87_rfc3339_unique",
    "S3.C87_file_time",
    "S3.C87_last_modified",
    "S3.C87_get",
    "S3.C87_head",
    "S3.C71_listing_partial",
    "S3.C71_listing_v2_partial",
    "S3.C76_list_buckets"
   ],
   "note": "The times of files are parameters of the model (from 1970 to 9999). C71_* and C76 are the times inside of listings."
  },
  {
   "property": "C88",
   "status": "partial",
   "theorems": [
    "S3.C88_copy_partial",
    "S3.C88_copy_time_fails"
   ],
   "note": "Proved: ETag of the copy; LastModified denotes the time of the source. False: LastModified is not the time of the copy (C88_copy_time_fails)."
  },
  {
   "property": "C89",
   "status": "partial",
   "theorems": [
    "S3.C89_client_partial",
    "S3.C89_from_empty_partial",
    "S3.C89_meaning",
    "S3.C89_client_fails"
   ],
   "note": "Excluded: self-copies (false: C89_client_fails), copies into missing folders (false: C14_copy_into_new_folder_fails), keys that are folders of one another or have dot components, ranges (C08), metadata that cannot be sent in headers (C64). The map is the one of Spec/Store (C17, C19)."
  },
  {
   "property": "C90",
   "status": "partial",
   "theorems": [
    "S3.C90_delete_document_partial",
    "S3.C90_quiet_fails",
    "S3.C90_version_fails"
   ],
   "note": "Every layout of the document; relative to the law XmlLaw for the XML reader (proved for plainXml in plainXml_law). Full statement false: Quiet and VersionId are ignored (witnesses). Excluded: repeated keys, keys naming directories, dot components, control characters, white space at the ends."
  },
  {
   "property": "C91",
   "status": "partial",
   "theorems": [
    "S3.C91_complete_document_partial",
    "S3.C91_etag_fails"
   ],
   "note": "Every layout of the document; relative to XmlLaw. Full statement false: the ETags in the document are not compared (witness). Also excluded: what C24 excludes."
  },
  {
   "property": "C92",
   "status": "partial",
   "theorems": [
    "S3.C92_location_partial",
    "S3.C92_location_fails"
   ],
   "note": "The bucket is created and GetBucketLocation answers; full statement false: the location is dropped (witness)."
  },
  {
   "property": "C93",
   "status": "partial",
   "theorems": [
    "S3.C93_upload_id_fails",
    "S3.C24_multipart_partial"
   ],
   "note": "Full statement false (witness). What holds: a completed object consists only of parts uploaded with its id (C24, whose history may contain parts of other ids)."
  },
  {
   "property": "C94",
   "status": "proved",
   "theorems": [
    "S3.C94_answered"
   ],
   "note": "Unending schedules are functions from steps to requests; a request keeps running if it comes up again and again. The code does not bound the number of directories a listing visits, the model does: the theorem says that there is a bound from which on the response no longer depends on it. The number of concurrent requests is finite: a listing can be kept busy by clients that create directories for ever. Requests that panic are exactly those of C56_panic_partial. Waiting for the client's own body and for the operating system is not modelled."
  },
  {
   "property": "C95",
   "status": "partial",
   "theorems": [
    "S3.C95_conversation",
    "S3.C95_finished",
    "S3.C95_map_partial"
   ],
   "note": "Isolation and termination hold for requests about objects and parts at plain addresses in existing folders (C80_folders_needed: the folders are needed). The map part has the exceptions of C89."
  },
  {
   "property": "C96",
   "status": "proved",
   "theorems": [
    "S3.C96_place",
    "S3.C96_same",
    "S3.C96_alias",
    "S3.C96_apart",
    "S3.C96_copy"
   ],
   "note": "Exact account of aliasing, for keys of the form of a file name whose place lies inside a bucket; replaces the restriction to plain keys in C05, C12, C15 and C18."
  },
  {
   "property": "C97",
   "status": "proved",
   "theorems": [
    "S3.C97_start",
    "S3.C97_keys",
    "S3.C97_open"
   ],
   "note": "links in the file tree, host and port are not modelled"
  },
  {
   "property": "C98",
   "status": "proved",
   "theorems": [
    "S3.C98_policy",
    "S3.C98_refused"
   ],
   "note": ""
  },
  {
   "property": "C99",
   "status": "proved",
   "theorems": [
    "S3.C99_one_meaning",
    "S3.C99_header"
   ],
   "note": "collisions stated for the concrete values of the two requests"
  },
  {
   "property": "C100",
   "status": "proved",
   "theorems": [
    "S3.C100_success",
    "S3.C100_put",
    "S3.C100_part",
    "S3.C100_delete",
    "S3.C100_complete",
    "S3.C100_listing"
   ],
   "note": "Every system call may fail before, after or in the middle of its effect. Success means the system calls succeeded: losses of the page cache are the subject of C109."
  },
  {
   "property": "C101",
   "status": "partial",
   "theorems": [
    "S3.C101_read_partial",
    "S3.C101_read_fails"
   ],
   "note": "Length, ETag and bytes are true or the transfer breaks off. False of the code: metadata may be missing from a success, and an existing object or bucket may be said to be missing (witness)."
  },
  {
   "property": "C102",
   "status": "partial",
   "theorems": [
    "S3.C102_copy_partial",
    "S3.C102_delete_objects_partial",
    "S3.C102_skip_fails"
   ],
   "note": "Bytes and report are true. False of the code: metadata may silently not be copied, objects may silently not be deleted (witness)."
  },
  {
   "property": "C103",
   "status": "proved",
   "theorems": [
    "S3.C103_others",
    "S3.C103_reads",
    "S3.C103_root",
    "S3.C103_errors"
   ],
   "note": "At every moment, for every fault pattern."
  },
  {
   "property": "C104",
   "status": "partial",
   "theorems": [
    "S3.C104_put_partial",
    "S3.C104_part",
    "S3.C104_complete",
    "S3.C104_delete",
    "S3.C104_copy",
    "S3.C104_old_lost_fails"
   ],
   "note": "Old content or a beginning of the new one. False of the code: after an error answer the old content may be lost (witness)."
  },
  {
   "property": "C105",
   "status": "proved",
   "theorems": [
    "S3.C105_kept",
    "S3.C105_put",
    "S3.C105_read",
    "S3.C105_delete",
    "S3.C105_part",
    "S3.C105_complete",
    "S3.C105_copy"
   ],
   "note": "Lives of the server: epochs of concurrent requests with failing system calls, each cut off at any moment, followed by a restart. Other requests of the epochs are on other objects (not on the same object, its bucket as a whole, or its metadata file). What is lost in a failure of the power because fsync is not called: C109."
  },
  {
   "property": "C106",
   "status": "proved",
   "theorems": [
    "S3.C106_isolation",
    "S3.C106_sound"
   ],
   "note": "Requests about objects and parts (AboutObjects), others Elsewhere as in C80; the folders the request would make exist."
  },
  {
   "property": "C107",
   "status": "proved",
   "theorems": [
    "S3.C107_isolation",
    "S3.C107_put",
    "S3.C107_put_get",
    "S3.C107_get",
    "S3.C107_delete",
    "S3.C107_delete_get",
    "S3.C107_part",
    "S3.C107_complete",
    "S3.C107_copy"
   ],
   "note": "lives of the server as HTTP clients see them: any requests at the same time and later (about other objects, or refused), failing system calls, deaths and restarts. Plain keys; for completion and copies the folder of the new object exists. The other requests each ask for an operation or are refused at once, which holds of every request for operations the server has that repeats no header or parameter (C89_meaning)."
  },
  {
   "property": "C108",
   "status": "partial",
   "theorems": [
    "S3.C108_written",
    "S3.C108_kept",
    "S3.C108_changed",
    "S3.C108_get",
    "S3.C108_head",
    "S3.C108_cache_partial",
    "S3.C108_same_second_fails",
    "S3.C108_bucket",
    "S3.C108_bucket_kept"
   ],
   "note": "partial because the second granularity of Last-Modified makes the cache property false for writes within one second (C108_same_second_fails); kept and written for plain keys, changed and cache for all requests"
  },
  {
   "property": "C109",
   "status": "partial",
   "theorems": [
    "S3.C109_untouched",
    "S3.C109_bytes",
    "S3.C109_deleted",
    "S3.C109_root",
    "S3.C109_acknowledged_fails",
    "S3.C109_complete_fails"
   ],
   "note": "false for what has been acknowledged (witnesses for uploads, deletions and completions); the rest for plain keys; C109_bytes for uploads and deletions, not for copies and completions to the same object"
  },
  {
   "property": "C110",
   "status": "partial",
   "theorems": [
    "S3.C110_put",
    "S3.C110_part",
    "S3.C110_copy_partial",
    "S3.C110_create_bucket",
    "S3.C110_delete_bucket",
    "S3.C110_delete",
    "S3.C110_delete_many_partial",
    "S3.C110_put_retry",
    "S3.C110_part_retry",
    "S3.C110_copy_retry",
    "S3.C110_create_bucket_retry",
    "S3.C110_delete_bucket_retry",
    "S3.C110_delete_retry",
    "S3.C110_delete_many_retry_partial",
    "S3.C110_put_in_flight",
    "S3.C110_put_in_flight_meta",
    "S3.C110_part_in_flight",
    "S3.C110_complete_fails",
    "S3.C110_complete_retry_fails",
    "S3.C110_complete_in_flight_fails"
   ],
   "note": "false for CompleteMultipartUpload (three witnesses); copies proved for plain source keys, their retry for two different plain addresses; the in-flight theorems cover uploads of objects with plain keys and of parts"
  },
  {
   "property": "C111",
   "status": "partial",
   "theorems": [
    "S3.C111_delete_once",
    "S3.C111_use_once",
    "S3.C111_create_once",
    "S3.C111_one_wins",
    "S3.C111_nobody_told_fails"
   ],
   "note": "plain keys; exactly one for DeleteObject, at most one for DeleteObjects, for which 'exactly one' is false (witness)"
  },
  {
   "property": "C112",
   "status": "partial",
   "theorems": [
    "S3.C112_presigned_accepted_partial",
    "S3.C112_presigned_served_partial",
    "S3.C112_form_accepted_partial",
    "S3.C112_form_served_partial",
    "S3.C112_escaped_path_fails",
    "S3.C112_filename_fails"
   ],
   "note": "False of the code for paths with an escape (C112_escaped_path_fails: the path is encoded twice, as in C38), for ${filename} in the key of a form (C112_filename_fails), and for forms whose first line is split between fragments (C52). Proved for everything else that the AWS rules produce, except presigned requests with a signed header that occurs twice or is called authorization or user-agent."
  },
  {
   "property": "C113",
   "status": "proved",
   "theorems": [
    "S3.C113_secrets",
    "S3.C113_other_users"
   ],
   "note": "For the whole handling of a request, answer and effects (the program it becomes). Time is not modelled."
  },
  {
   "property": "C114",
   "status": "partial",
   "theorems": [
    "S3.C114_header_partial",
    "S3.C114_essentials_partial",
    "S3.C114_condition_fails",
    "S3.C114_checksum_fails",
    "S3.C114_listing_fails",
    "S3.C114_version_fails",
    "S3.C114_content_type_fails",
    "S3.C114_directive_fails",
    "S3.C114_header_fails"
   ],
   "note": "Proved: unknown, unsigned headers make no difference to any request, and admitted requests are treated by their method, path, body and known parameters alone. False: parameters of the S3 API that the server does not know are ignored rather than refused (witnesses); an unknown header that is not ASCII makes the request fail."
  },
  {
   "property": "C115",
   "status": "partial",
   "theorems": [
    "S3.C115_pages_partial",
    "S3.C115_page_size_fails"
   ],
   "note": "Proved: the paging client sees every object exactly once, in order. False: pages can be larger than max-keys (witness). Missing: keys, delimiters and encoding types with control characters, as in C71."
  },
  {
   "property": "C116",
   "status": "partial",
   "theorems": [
    "S3.C116_listed_partial",
    "S3.C116_unlisted_fails"
   ],
   "note": "Missing: keys that are other spellings of a place (the converse is false for them, witness C116_unlisted_fails), contents longer than an i64, metadata that cannot be sent, control characters in keys."
  },
  {
   "property": "C117",
   "status": "partial",
   "theorems": [
    "S3.C117_effort_partial",
    "S3.C117_refused",
    "S3.C117_range_reads_all",
    "S3.C117_range_fails",
    "S3.C117_listing_fails"
   ],
   "note": "Bounds for all requests but listings and GETs without an end of the range, whose work grows with what is stored (no bound exists: C117_listing_fails). Whole-file reads, copies and removal of a bucket count as one access. The work for a ranged GET is not about the range only: C117_range_fails."
  },
  {
   "property": "C118",
   "status": "partial",
   "theorems": [
    "S3.C118_packets_partial",
    "S3.C118_accesses",
    "S3.C118_form_fails"
   ],
   "note": "False for forms whose first line is split (C118_form_fails, a signed form refused). Proved: for all other requests the response and the whole file tree after it are the same when the request is served alone (C118_packets_partial); requests that upload nothing even make the same accesses, so this holds beside other requests and faults (C118_accesses)."
  },
  {
   "property": "C119",
   "status": "partial",
   "theorems": [
    "S3.C119_one_behaviour_partial",
    "S3.C119_presigned_partial",
    "S3.C119_replay_fails"
   ],
   "note": "False in part: a copy sent later is served (C119_replay_fails). Proved: two accepted requests with the same signature are the same program of storage accesses and give the same response, if the headers acted upon and the digest of the payload are signed (for presigned URLs: if the bodies agree), or an explicit collision."
  },
  {
   "property": "C120",
   "status": "partial",
   "theorems": [
    "S3.C120_root_partial",
    "S3.C120_only_empty",
    "S3.C120_root_removed_fails"
   ],
   "note": "The storage directory survives every life of the server in which no DELETE names a key that leads to it, whatever else is sent; any DELETE can only remove it at a moment when it is empty. The full statement is false: DELETE of the key ../ on an empty store removes the storage directory."
  },
  {
   "property": "C121",
   "status": "partial",
   "theorems": [
    "S3.C121_moved_partial",
    "S3.C121_one_partial",
    "S3.C121_absolute_key_fails"
   ],
   "note": "Proved for any life of the server (concurrent requests, failing system calls, crashes) and for requests one by one: same responses and same content at both places. Missing: keys that start with a slash, for which it is false (C121_absolute_key_fails), and uploads to keys that lead to the storage directory itself."
  },
  {
   "property": "C122",
   "status": "proved",
   "theorems": [
    "S3.C122_files",
    "S3.C122_folders",
    "S3.C122_outside"
   ],
   "note": "over every life of the server: concurrent requests, failing disk, crashes and restarts; C122_files and C122_folders: requests are those the model assigns an operation to, or refused ones; C122_outside: any requests (C124_files and C124_folders for any requests inside)"
  },
  {
   "property": "C123",
   "status": "partial",
   "theorems": [
    "S3.C123_undone_partial",
    "S3.C123_litter_fails",
    "S3.C123_folder_fails"
   ],
   "note": "proved for uploads without metadata into an existing folder, with crashes, failures and concurrent requests at the place; false of the code for metadata files, parts of uploads that were not completed and new folders (witnesses)"
  },
  {
   "property": "C124",
   "status": "proved",
   "theorems": [
    "S3.C124_other_methods",
    "S3.C124_files",
    "S3.C124_folders"
   ],
   "note": "no hypothesis on the requests; a POST to a bucket counts as naming every key under it, because the key is in the form or document"
  },
  {
   "property": "C125",
   "status": "proved",
   "theorems": [
    "S3.C125_one_moment",
    "S3.C125_serial",
    "S3.C125_upload_fails"
   ],
   "note": "Creations of buckets, deletions of objects, the list of buckets and the questions whether a bucket is there take effect at one of their own system calls, whatever runs beside them (other requests unrestricted, their calls may fail); runs in which every PUT, POST and DELETE is of this kind are equivalent to a serial order that respects real time. C125_upload_fails shows that uploads are not of this kind, C126_delete_bucket_fails that deletions of buckets are not. The calls of the request itself do not fail in these theorems."
  },
  {
   "property": "C126",
   "status": "proved",
   "theorems": [
    "S3.C126_same",
    "S3.C126_life",
    "S3.C126_files",
    "S3.C126_folders",
    "S3.C126_put",
    "S3.C126_isolation",
    "S3.C126_one_moment",
    "S3.C126_delete_bucket_fails"
   ],
   "note": "C126_same and C126_life are the simulation for arbitrary requests; the others are its consequences for requests beside the deletion (C126_put, C126_isolation: other buckets are the ones deleted). C126_delete_bucket_fails shows that the deletion itself is not one moment. remove_dir_all is taken to report an error when the directory itself is gone before it ends."
  },
  {
   "property": "C127",
   "status": "proved",
   "theorems": [
    "S3.C127_refused",
    "S3.C127_refused_among",
    "S3.C127_unnoticed",
    "S3.C127_life"
   ],
   "note": "Insider/Outsider are defined in Spec/Outsider by the SigV4 specification, not by the check of the model. An authentication provider with errors of its own is assumed to report errors (status 400 or more). How long the refusal takes is not modelled."
  },
  {
   "property": "C128",
   "status": "proved",
   "theorems": [
    "S3.C128_part",
    "S3.C128_multipart",
    "S3.C128_read"
   ],
   "note": "The folder the object is in and the root directory are assumed to exist when the completion is sent; the part numbers are 1 to N, which is what complete_multipart_upload requires."
  },
  {
   "property": "C129",
   "status": "proved",
   "theorems": [
    "S3.C129_alone",
    "S3.C129_isolation",
    "S3.C129_sound",
    "S3.C129_kept",
    "S3.C129_files",
    "S3.C129_folders",
    "S3.C129_put",
    "S3.C129_get",
    "S3.C129_copy",
    "S3.C129_complete",
    "S3.C129_etag_fails"
   ],
   "note": "For programs in any pieces (relation InPieces) and removals entry by entry. C129_etag_fails shows the limit: two requests about the same object, a GET beside a PUT."
  },
  {
   "property": "C130",
   "status": "proved",
   "theorems": [
    "S3.C130_listing",
    "S3.C130_buckets",
    "S3.C130_others",
    "S3.C130_twice_fails"
   ],
   "note": "Keys that are text and can be written in XML (C20 and C71 say what happens otherwise). Keys that stay are counted exactly once; C130_twice_fails shows that a key that goes and comes back can appear twice. C130_others: looks happen in listings only."
  },
  {
   "property": "C131",
   "status": "proved",
   "theorems": [
    "S3.C131_answer",
    "S3.C131_step",
    "S3.C131_machine",
    "S3.C131_from_empty"
   ],
   "note": "Exact: the machine has the odd cases of the server, ranges and uploads in parts included. Left out of the machine: the answers of listings (C20, C101). Requests run one after the other on a disk without failures. Upload ids are no paths. Needs that an empty text is not JSON and that metadata survive being written and read (C19/C64)."
  },
  {
   "property": "C132",
   "status": "proved",
   "theorems": [
    "S3.C132_client",
    "S3.C132_from_empty"
   ],
   "note": "Hypotheses: the address set is Spelled (every spelling leads to a place inside its bucket, no place is a folder of another); metadata can be sent in headers; keys and upload ids that a response document repeats can be written in XML; the MD5 of the server satisfies the ETag hypothesis (realExt_clean)."
  },
  {
   "property": "C133",
   "status": "proved",
   "theorems": [
    "S3.C133_listing",
    "S3.C133_buckets",
    "S3.C133_client"
   ],
   "note": "Hypotheses: Spelled address set; names of places are valid UTF-8 (and, over HTTP, can be written in XML); contents and number of directory entries fit into an i64; the fuel of the listing loop of the model exceeds the number of entries."
  },
  {
   "property": "C134",
   "status": "proved",
   "theorems": [
    "S3.C134_round",
    "S3.C134_response",
    "S3.C134_history",
    "S3.C134_client"
   ],
   "note": "Rounds of requests at the same time are, for the storage and for every client that is not disturbed, the machine of C131 doing them one after the other. Keys in rounds at the same time are plain. Copies and completed uploads go into folders that exist (C80_folders_needed shows why folders matter), other uploads anywhere (C135)."
  },
  {
   "property": "C135",
   "status": "proved",
   "theorems": [
    "S3.C135_put",
    "S3.C135_upload"
   ],
   "note": "No folder needs to exist. The other requests are about other objects (C129's Elsewhere), and keys are plain."
  },
  {
   "property": "C136",
   "status": "proved",
   "theorems": [
    "S3.C136_cut",
    "S3.C136_history",
    "S3.C136_client"
   ],
   "note": "Keys are plain (as in C134) and requests served at the same time are independent; listings are in C137."
  },
  {
   "property": "C137",
   "status": "proved",
   "theorems": [
    "S3.C137_one_state",
    "S3.C137_certain",
    "S3.C137_finished"
   ],
   "note": "Hypotheses as in C136 and C133: plain keys, requests served at the same time are independent; names of places are valid UTF-8 and can be written in XML; contents and number of directory entries fit into an i64; the fuel of the listing loop of the model exceeds the number of entries."
  },
  {
   "property": "C138",
   "status": "proved",
   "theorems": [
    "S3.C138_step",
    "S3.C138_determined",
    "S3.C138_history",
    "S3.C138_listing",
    "S3.C138_client"
   ],
   "note": "folder keys are plain (c1/../cn/), their names fit into file names, and no address of the set is the folder or on the way to it; requests one after another on a disk that works"
  },
  {
   "property": "C139",
   "status": "proved",
   "theorems": [
    "S3.C139_step",
    "S3.C139_determined",
    "S3.C139_safe",
    "S3.C139_onto",
    "S3.C139_stripped",
    "S3.C139_history",
    "S3.C139_client"
   ],
   "note": "Extends C138 to every request that names a folder key where an object is expected. For releases of path-dedot that do not keep trailing slashes, copies onto folder keys without a folder are not covered, and completions there are described by C139_stripped only."
  },
  {
   "property": "C140",
   "status": "proved",
   "theorems": [
    "S3.C140_moment",
    "S3.C140_alone",
    "S3.C140_all",
    "S3.C140_again",
    "S3.C140_delete"
   ],
   "note": "PUTs of folder keys at the same time, with faults, cut off; each answered as alone; sending again is enough; DELETE cut off. Only PUTs run at the same time here; a DELETE of a folder beside them is not covered."
  },
  {
   "property": "C141",
   "status": "proved",
   "theorems": [
    "S3.C141_kept",
    "S3.C141_put",
    "S3.C141_read",
    "S3.C141_copy",
    "S3.C141_complete",
    "S3.C141_upload_fails"
   ],
   "note": "Objects beside folder requests stay (kept); successes of uploads, copies and completions are real (put, read, copy, complete); the limit named at the end of the statement is proved by a run (upload_fails)."
  },
  {
   "property": "C142",
   "status": "proved",
   "theorems": [
    "S3.C142_isolation",
    "S3.C142_sound",
    "S3.C142_web",
    "S3.C142_put",
    "S3.C142_copy",
    "S3.C142_complete"
   ],
   "note": "Stated for requests other than deletions, which are the subject of C143. For objects that are not there yet the statement on answers is false (C141_upload_fails); what an answer of success then means is C142_put, C142_copy and C142_complete."
  },
  {
   "property": "C143",
   "status": "proved",
   "theorems": [
    "S3.C143_delete",
    "S3.C143_gone",
    "S3.C143_delete_objects",
    "S3.C143_reported",
    "S3.C143_web",
    "S3.C143_web_gone"
   ],
   "note": "For plain keys. That DeleteObjects reports all is stated for objects that are there; for keys that are not there a folder of their name makes the request answer InternalError (see C26)."
  },
  {
   "property": "C144",
   "status": "proved",
   "theorems": [
    "S3.C144_put",
    "S3.C144_isolation",
    "S3.C144_sound",
    "S3.C144_web",
    "S3.C144_web_put"
   ],
   "note": "Whether a folder of the name of the object, or below it, is made at the same time is excluded; an example shows that the upload then fails, as it must. Folder removals are C141 and C142."
  },
  {
   "property": "C145",
   "status": "proved",
   "theorems": [
    "S3.C145_made",
    "S3.C145_there",
    "S3.C145_stays",
    "S3.C145_web_made",
    "S3.C145_web_there",
    "S3.C145_web_stays"
   ],
   "note": "For requests with plain addresses and folders with plain names; the other requests are any that do not put a file in the way or delete the folder. Any interleaving, any faults."
  },
  {
   "property": "C146",
   "status": "proved",
   "theorems": [
    "S3.C146_same_answer",
    "S3.C146_same_effect",
    "S3.C146_answer_fails"
   ],
   "note": "Objects, folders, parts and copies keep response and effect; deletions and bucket creations keep the effect, and C146_answer_fails shows that their answers change. During the attempts others may only read, begin uploads, or be refused. Several objects are deleted by different plain keys that name no folders."
  }
 ]
}