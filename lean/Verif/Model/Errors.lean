import Verif.Base.Bytes
/-! Model of `/repo/src/errors.rs` (error codes) and of the error response of `/repo/src/output.rs`.
The three tables are transcribed mechanically from the source. -/
namespace S3

/-- `/repo/src/errors.rs:232-501` `enum S3ErrorCode` -/
inductive S3ErrorCode where
  | AccessDenied
  | AccountProblem
  | AllAccessDisabled
  | AmbiguousGrantByEmailAddress
  | AuthorizationHeaderMalformed
  | BadDigest
  | BucketAlreadyExists
  | BucketAlreadyOwnedByYou
  | BucketNotEmpty
  | CredentialsNotSupported
  | CrossLocationLoggingProhibited
  | EntityTooSmall
  | EntityTooLarge
  | ExpiredToken
  | IllegalLocationConstraintException
  | IllegalVersioningConfigurationException
  | IncompleteBody
  | IncorrectNumberOfFilesInPostRequest
  | InlineDataTooLarge
  | InternalError
  | InvalidAccessKeyId
  | InvalidAddressingHeader
  | InvalidArgument
  | InvalidBucketName
  | InvalidBucketState
  | InvalidDigest
  | InvalidEncryptionAlgorithmError
  | InvalidLocationConstraint
  | InvalidObjectState
  | InvalidPart
  | InvalidPartOrder
  | InvalidPayer
  | InvalidPolicyDocument
  | InvalidRange
  | InvalidRequest
  | InvalidSecurity
  | InvalidSOAPRequest
  | InvalidStorageClass
  | InvalidTargetBucketForLogging
  | InvalidToken
  | InvalidURI
  | KeyTooLongError
  | MalformedACLError
  | MalformedPOSTRequest
  | MalformedXML
  | MaxMessageLengthExceeded
  | MaxPostPreDataLengthExceededError
  | MetadataTooLarge
  | MethodNotAllowed
  | MissingAttachment
  | MissingContentLength
  | MissingRequestBodyError
  | MissingSecurityElement
  | MissingSecurityHeader
  | NoLoggingStatusForKey
  | NoSuchBucket
  | NoSuchBucketPolicy
  | NoSuchKey
  | NoSuchLifecycleConfiguration
  | NoSuchUpload
  | NoSuchVersion
  | NotImplemented
  | NotSignedUp
  | NotSupported
  | ObjectNotInActiveTierError
  | OperationAborted
  | PermanentRedirect
  | PreconditionFailed
  | Redirect
  | RestoreAlreadyInProgress
  | RequestIsNotMultiPartContent
  | RequestTimeout
  | RequestTimeTooSkewed
  | RequestTorrentOfBucketError
  | ServerSideEncryptionConfigurationNotFoundError
  | ServiceUnavailable
  | SignatureDoesNotMatch
  | SlowDown
  | TemporaryRedirect
  | TokenRefreshRequired
  | TooManyBuckets
  | UnexpectedContent
  | UnresolvableGrantByEmailAddress
  | UserKeyMustBeSpecified
  | XAmzContentSHA256Mismatch
  deriving DecidableEq, Repr

/-- `/repo/src/errors.rs:548-640` `as_status_code` -/
def S3ErrorCode.statusCode : S3ErrorCode → Option Nat
  | .AccessDenied => some 403
  | .AccountProblem => some 403
  | .AllAccessDisabled => some 403
  | .AmbiguousGrantByEmailAddress => some 400
  | .AuthorizationHeaderMalformed => some 400
  | .BadDigest => some 400
  | .BucketAlreadyExists => some 409
  | .BucketAlreadyOwnedByYou => some 409
  | .BucketNotEmpty => some 409
  | .CredentialsNotSupported => some 400
  | .CrossLocationLoggingProhibited => some 403
  | .EntityTooSmall => some 400
  | .EntityTooLarge => some 400
  | .ExpiredToken => some 400
  | .IllegalLocationConstraintException => some 400
  | .IllegalVersioningConfigurationException => some 400
  | .IncompleteBody => some 400
  | .IncorrectNumberOfFilesInPostRequest => some 400
  | .InlineDataTooLarge => some 400
  | .InternalError => some 500
  | .InvalidAccessKeyId => some 403
  | .InvalidAddressingHeader => none
  | .InvalidArgument => some 400
  | .InvalidBucketName => some 400
  | .InvalidBucketState => some 409
  | .InvalidDigest => some 400
  | .InvalidEncryptionAlgorithmError => some 400
  | .InvalidLocationConstraint => some 400
  | .InvalidObjectState => some 403
  | .InvalidPart => some 400
  | .InvalidPartOrder => some 400
  | .InvalidPayer => some 403
  | .InvalidPolicyDocument => some 400
  | .InvalidRange => some 416
  | .InvalidRequest => some 400
  | .InvalidSecurity => some 403
  | .InvalidSOAPRequest => some 400
  | .InvalidStorageClass => some 400
  | .InvalidTargetBucketForLogging => some 400
  | .InvalidToken => some 400
  | .InvalidURI => some 400
  | .KeyTooLongError => some 400
  | .MalformedACLError => some 400
  | .MalformedPOSTRequest => some 400
  | .MalformedXML => some 400
  | .MaxMessageLengthExceeded => some 400
  | .MaxPostPreDataLengthExceededError => some 400
  | .MetadataTooLarge => some 400
  | .MethodNotAllowed => some 405
  | .MissingAttachment => none
  | .MissingContentLength => some 411
  | .MissingRequestBodyError => some 400
  | .MissingSecurityElement => some 400
  | .MissingSecurityHeader => some 400
  | .NoLoggingStatusForKey => some 400
  | .NoSuchBucket => some 404
  | .NoSuchBucketPolicy => some 404
  | .NoSuchKey => some 404
  | .NoSuchLifecycleConfiguration => some 404
  | .NoSuchUpload => some 404
  | .NoSuchVersion => some 404
  | .NotImplemented => some 501
  | .NotSignedUp => some 403
  | .NotSupported => none
  | .ObjectNotInActiveTierError => some 200
  | .OperationAborted => some 409
  | .PermanentRedirect => some 301
  | .PreconditionFailed => some 412
  | .Redirect => some 307
  | .RestoreAlreadyInProgress => some 409
  | .RequestIsNotMultiPartContent => some 400
  | .RequestTimeout => some 400
  | .RequestTimeTooSkewed => some 403
  | .RequestTorrentOfBucketError => some 400
  | .ServerSideEncryptionConfigurationNotFoundError => some 400
  | .ServiceUnavailable => some 503
  | .SignatureDoesNotMatch => some 403
  | .SlowDown => some 503
  | .TemporaryRedirect => some 307
  | .TokenRefreshRequired => some 400
  | .TooManyBuckets => some 400
  | .UnexpectedContent => some 400
  | .UnresolvableGrantByEmailAddress => some 400
  | .UserKeyMustBeSpecified => some 400
  | .XAmzContentSHA256Mismatch => some 400

/-- `/repo/src/errors.rs:516-523` `as_static_str`, instantiated by `/repo/src/errors.rs:642-728` -/
def S3ErrorCode.asStr : S3ErrorCode → Bytes
  | .AccessDenied => b!"AccessDenied"
  | .AccountProblem => b!"AccountProblem"
  | .AllAccessDisabled => b!"AllAccessDisabled"
  | .AmbiguousGrantByEmailAddress => b!"AmbiguousGrantByEmailAddress"
  | .AuthorizationHeaderMalformed => b!"AuthorizationHeaderMalformed"
  | .BadDigest => b!"BadDigest"
  | .BucketAlreadyExists => b!"BucketAlreadyExists"
  | .BucketAlreadyOwnedByYou => b!"BucketAlreadyOwnedByYou"
  | .BucketNotEmpty => b!"BucketNotEmpty"
  | .CredentialsNotSupported => b!"CredentialsNotSupported"
  | .CrossLocationLoggingProhibited => b!"CrossLocationLoggingProhibited"
  | .EntityTooSmall => b!"EntityTooSmall"
  | .EntityTooLarge => b!"EntityTooLarge"
  | .ExpiredToken => b!"ExpiredToken"
  | .IllegalLocationConstraintException => b!"IllegalLocationConstraintException"
  | .IllegalVersioningConfigurationException => b!"IllegalVersioningConfigurationException"
  | .IncompleteBody => b!"IncompleteBody"
  | .IncorrectNumberOfFilesInPostRequest => b!"IncorrectNumberOfFilesInPostRequest"
  | .InlineDataTooLarge => b!"InlineDataTooLarge"
  | .InternalError => b!"InternalError"
  | .InvalidAccessKeyId => b!"InvalidAccessKeyId"
  | .InvalidAddressingHeader => b!"InvalidAddressingHeader"
  | .InvalidArgument => b!"InvalidArgument"
  | .InvalidBucketName => b!"InvalidBucketName"
  | .InvalidBucketState => b!"InvalidBucketState"
  | .InvalidDigest => b!"InvalidDigest"
  | .InvalidEncryptionAlgorithmError => b!"InvalidEncryptionAlgorithmError"
  | .InvalidLocationConstraint => b!"InvalidLocationConstraint"
  | .InvalidObjectState => b!"InvalidObjectState"
  | .InvalidPart => b!"InvalidPart"
  | .InvalidPartOrder => b!"InvalidPartOrder"
  | .InvalidPayer => b!"InvalidPayer"
  | .InvalidPolicyDocument => b!"InvalidPolicyDocument"
  | .InvalidRange => b!"InvalidRange"
  | .InvalidRequest => b!"InvalidRequest"
  | .InvalidSecurity => b!"InvalidSecurity"
  | .InvalidSOAPRequest => b!"InvalidSOAPRequest"
  | .InvalidStorageClass => b!"InvalidStorageClass"
  | .InvalidTargetBucketForLogging => b!"InvalidTargetBucketForLogging"
  | .InvalidToken => b!"InvalidToken"
  | .InvalidURI => b!"InvalidURI"
  | .KeyTooLongError => b!"KeyTooLongError"
  | .MalformedACLError => b!"MalformedACLError"
  | .MalformedPOSTRequest => b!"MalformedPOSTRequest"
  | .MalformedXML => b!"MalformedXML"
  | .MaxMessageLengthExceeded => b!"MaxMessageLengthExceeded"
  | .MaxPostPreDataLengthExceededError => b!"MaxPostPreDataLengthExceededError"
  | .MetadataTooLarge => b!"MetadataTooLarge"
  | .MethodNotAllowed => b!"MethodNotAllowed"
  | .MissingAttachment => b!"MissingAttachment"
  | .MissingContentLength => b!"MissingContentLength"
  | .MissingRequestBodyError => b!"MissingRequestBodyError"
  | .MissingSecurityElement => b!"MissingSecurityElement"
  | .MissingSecurityHeader => b!"MissingSecurityHeader"
  | .NoLoggingStatusForKey => b!"NoLoggingStatusForKey"
  | .NoSuchBucket => b!"NoSuchBucket"
  | .NoSuchBucketPolicy => b!"NoSuchBucketPolicy"
  | .NoSuchKey => b!"NoSuchKey"
  | .NoSuchLifecycleConfiguration => b!"NoSuchLifecycleConfiguration"
  | .NoSuchUpload => b!"NoSuchUpload"
  | .NoSuchVersion => b!"NoSuchVersion"
  | .NotImplemented => b!"NotImplemented"
  | .NotSignedUp => b!"NotSignedUp"
  | .NotSupported => b!"NotSupported"
  | .ObjectNotInActiveTierError => b!"ObjectNotInActiveTierError"
  | .OperationAborted => b!"OperationAborted"
  | .PermanentRedirect => b!"PermanentRedirect"
  | .PreconditionFailed => b!"PreconditionFailed"
  | .Redirect => b!"Redirect"
  | .RestoreAlreadyInProgress => b!"RestoreAlreadyInProgress"
  | .RequestIsNotMultiPartContent => b!"RequestIsNotMultiPartContent"
  | .RequestTimeout => b!"RequestTimeout"
  | .RequestTimeTooSkewed => b!"RequestTimeTooSkewed"
  | .RequestTorrentOfBucketError => b!"RequestTorrentOfBucketError"
  | .ServerSideEncryptionConfigurationNotFoundError => b!"ServerSideEncryptionConfigurationNotFoundError"
  | .ServiceUnavailable => b!"ServiceUnavailable"
  | .SignatureDoesNotMatch => b!"SignatureDoesNotMatch"
  | .SlowDown => b!"SlowDown"
  | .TemporaryRedirect => b!"TemporaryRedirect"
  | .TokenRefreshRequired => b!"TokenRefreshRequired"
  | .TooManyBuckets => b!"TooManyBuckets"
  | .UnexpectedContent => b!"UnexpectedContent"
  | .UnresolvableGrantByEmailAddress => b!"UnresolvableGrantByEmailAddress"
  | .UserKeyMustBeSpecified => b!"UserKeyMustBeSpecified"
  | .XAmzContentSHA256Mismatch => b!"XAmzContentSHA256Mismatch"

/-- the arms of the `match` of `parse_from_str`, `/repo/src/errors.rs:528-539,642-728` -/
def S3ErrorCode.parseArms : List (Bytes × S3ErrorCode) :=
  [
(b!"AccessDenied", .AccessDenied),
   (b!"AccountProblem", .AccountProblem),
   (b!"AllAccessDisabled", .AllAccessDisabled),
   (b!"AmbiguousGrantByEmailAddress", .AmbiguousGrantByEmailAddress),
   (b!"AuthorizationHeaderMalformed", .AuthorizationHeaderMalformed),
   (b!"BadDigest", .BadDigest),
   (b!"BucketAlreadyExists", .BucketAlreadyExists),
   (b!"BucketAlreadyOwnedByYou", .BucketAlreadyOwnedByYou),
   (b!"BucketNotEmpty", .BucketNotEmpty),
   (b!"CredentialsNotSupported", .CredentialsNotSupported),
   (b!"CrossLocationLoggingProhibited", .CrossLocationLoggingProhibited),
   (b!"EntityTooSmall", .EntityTooSmall),
   (b!"EntityTooLarge", .EntityTooLarge),
   (b!"ExpiredToken", .ExpiredToken),
   (b!"IllegalLocationConstraintException", .IllegalLocationConstraintException),
   (b!"IllegalVersioningConfigurationException", .IllegalVersioningConfigurationException),
   (b!"IncompleteBody", .IncompleteBody),
   (b!"IncorrectNumberOfFilesInPostRequest", .IncorrectNumberOfFilesInPostRequest),
   (b!"InlineDataTooLarge", .InlineDataTooLarge),
   (b!"InternalError", .InternalError),
   (b!"InvalidAccessKeyId", .InvalidAccessKeyId),
   (b!"InvalidAddressingHeader", .InvalidAddressingHeader),
   (b!"InvalidArgument", .InvalidArgument),
   (b!"InvalidBucketName", .InvalidBucketName),
   (b!"InvalidBucketState", .InvalidBucketState),
   (b!"InvalidDigest", .InvalidDigest),
   (b!"InvalidEncryptionAlgorithmError", .InvalidEncryptionAlgorithmError),
   (b!"InvalidLocationConstraint", .InvalidLocationConstraint),
   (b!"InvalidObjectState", .InvalidObjectState),
   (b!"InvalidPart", .InvalidPart),
   (b!"InvalidPartOrder", .InvalidPartOrder),
   (b!"InvalidPayer", .InvalidPayer),
   (b!"InvalidPolicyDocument", .InvalidPolicyDocument),
   (b!"InvalidRange", .InvalidRange),
   (b!"InvalidRequest", .InvalidRequest),
   (b!"InvalidSecurity", .InvalidSecurity),
   (b!"InvalidSOAPRequest", .InvalidSOAPRequest),
   (b!"InvalidStorageClass", .InvalidStorageClass),
   (b!"InvalidTargetBucketForLogging", .InvalidTargetBucketForLogging),
   (b!"InvalidToken", .InvalidToken),
   (b!"InvalidURI", .InvalidURI),
   (b!"KeyTooLongError", .KeyTooLongError),
   (b!"MalformedACLError", .MalformedACLError),
   (b!"MalformedPOSTRequest", .MalformedPOSTRequest),
   (b!"MalformedXML", .MalformedXML),
   (b!"MaxMessageLengthExceeded", .MaxMessageLengthExceeded),
   (b!"MaxPostPreDataLengthExceededError", .MaxPostPreDataLengthExceededError),
   (b!"MetadataTooLarge", .MetadataTooLarge),
   (b!"MethodNotAllowed", .MethodNotAllowed),
   (b!"MissingAttachment", .MissingAttachment),
   (b!"MissingContentLength", .MissingContentLength),
   (b!"MissingRequestBodyError", .MissingRequestBodyError),
   (b!"MissingSecurityElement", .MissingSecurityElement),
   (b!"MissingSecurityHeader", .MissingSecurityHeader),
   (b!"NoLoggingStatusForKey", .NoLoggingStatusForKey),
   (b!"NoSuchBucket", .NoSuchBucket),
   (b!"NoSuchBucketPolicy", .NoSuchBucketPolicy),
   (b!"NoSuchKey", .NoSuchKey),
   (b!"NoSuchLifecycleConfiguration", .NoSuchLifecycleConfiguration),
   (b!"NoSuchUpload", .NoSuchUpload),
   (b!"NoSuchVersion", .NoSuchVersion),
   (b!"NotImplemented", .NotImplemented),
   (b!"NotSignedUp", .NotSignedUp),
   (b!"NotSupported", .NotSupported),
   (b!"ObjectNotInActiveTierError", .ObjectNotInActiveTierError),
   (b!"OperationAborted", .OperationAborted),
   (b!"PermanentRedirect", .PermanentRedirect),
   (b!"PreconditionFailed", .PreconditionFailed),
   (b!"Redirect", .Redirect),
   (b!"RestoreAlreadyInProgress", .RestoreAlreadyInProgress),
   (b!"RequestIsNotMultiPartContent", .RequestIsNotMultiPartContent),
   (b!"RequestTimeout", .RequestTimeout),
   (b!"RequestTimeTooSkewed", .RequestTimeTooSkewed),
   (b!"RequestTorrentOfBucketError", .RequestTorrentOfBucketError),
   (b!"ServerSideEncryptionConfigurationNotFoundError", .ServerSideEncryptionConfigurationNotFoundError),
   (b!"ServiceUnavailable", .ServiceUnavailable),
   (b!"SignatureDoesNotMatch", .SignatureDoesNotMatch),
   (b!"SlowDown", .SlowDown),
   (b!"TemporaryRedirect", .TemporaryRedirect),
   (b!"TokenRefreshRequired", .TokenRefreshRequired),
   (b!"TooManyBuckets", .TooManyBuckets),
   (b!"UnexpectedContent", .UnexpectedContent),
   (b!"UnresolvableGrantByEmailAddress", .UnresolvableGrantByEmailAddress),
   (b!"UserKeyMustBeSpecified", .UserKeyMustBeSpecified),
   (b!"XAmzContentSHA256Mismatch", .XAmzContentSHA256Mismatch)]

/-- `/repo/src/errors.rs:525-540` `parse_from_str`: the first arm whose pattern equals the string -/
def S3ErrorCode.parse (s : Bytes) : Option S3ErrorCode :=
  (S3ErrorCode.parseArms.find? fun p => p.1 == s).map (·.2)

/-- `/repo/src/output.rs:34-39`: the HTTP status of an error response, 500 when the code has none -/
def S3ErrorCode.httpStatus (c : S3ErrorCode) : Nat := c.statusCode.getD 500

end S3
