import Verif.Model.Hash
import Verif.Spec.SigV4
/-! The real hash functions satisfy what the theorems assume of them. -/
namespace S3
open S3.Spec

theorem bytesBE_length (w : UInt32) : (bytesBE w).length = 4 := rfl

theorem bytesLE_length (w : UInt32) : (bytesLE w).length = 4 := rfl

theorem sha256_length (m : Bytes) : (sha256 m).length = 32 := by
  simp only [sha256, List.length_append, bytesBE_length]

theorem md5_length (m : Bytes) : (md5 m).length = 16 := by
  simp only [md5, List.length_append, bytesLE_length]

/-- SHA-256 and HMAC-SHA256 satisfy the laws assumed of `Crypto`. -/
theorem realCrypto_law : CryptoLaw realCrypto where
  sha_length s := sha256_length s
  hmac_length _ _ := sha256_length _
  sha_empty := by decide +kernel

end S3
