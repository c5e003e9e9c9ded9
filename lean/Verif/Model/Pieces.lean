import Verif.Model.Sweep
/-! Reads and writes in pieces. `Model/Storage.lean` reads a file to its end, writes a buffer and copies a file in one step each;
`/repo/src/storages/fs.rs` does so in loops of `read` and `write` (lines 101, 117, 126-137, 144-176, 228, 239, 820), and other threads run in
between. Here: which programs of short calls stand for a program of long calls. -/
namespace S3

/-- Where a thread is: before a call of its program; in a loop that reads a file to its end (`read`, `get_md5_sum` and `load_metadata`,
`/repo/src/storages/fs.rs:101,126-137`) with what it has read so far; in a loop that copies a file (`async_fs::copy` and
`futures::io::copy`, lines 228, 239, 820) with what it has written, what it has read and not yet written (a `BufWriter`, line 799), how it
goes on with the whole content, and how after an error. -/
inductive Doing (α : Type) where
  | at (p : Prog α)
  | reading (h : Handle) (buf : Bytes) (k : Option Bytes → Prog α)
  | copying (h : Handle) (i : Ino) (off : Nat) (buf pending : Bytes) (k : Bytes → Prog α) (e : Prog α)

/-- `Pieces s q`: the program `q` is what is left to do in `s`, with reads, writes and copies in any pieces. A loop ends when a read
returns nothing, or with a last call that takes all that is left; an error in the middle ends it like an error of the long call. Copies
of a file to another offset of itself (which the paths of `complete_multipart_upload`, `/repo/src/storages/fs.rs:811-820`, exclude for keys in
a bucket) are not taken apart. Environment of `/repo/src/storages/fs.rs`: the loops of lines 101, 117, 126-137, 144-176, 228, 239, 820. -/
inductive Pieces {α : Type} : Doing α → Prog α → Prop where
  | ret (a : α) : Pieces (.at (.ret a)) (.ret a)
  | fail (e : S3ErrorCode) : Pieces (.at (.fail e)) (.fail e)
  | panic : Pieces (.at .panic) .panic
  | diverge : Pieces (.at .diverge) .diverge
  /-- a call in one step -/
  | sys (c : Call) {k k' : Resp c → Prog α} (next : ∀ r, Pieces (.at (k r)) (k' r)) : Pieces (.at (.sys c k)) (.sys c k')
  /-- a write of which the first bytes are written before the others -/
  | write {i : Ino} {off : Nat} (b b' : Bytes) {k k' : Bool → Prog α}
      (next : Pieces (.at (.sys (.writeAt i (off + b.length) b') k)) (k' true)) (stop : Pieces (.at (k false)) (k' false)) :
      Pieces (.at (.sys (.writeAt i off (b ++ b')) k)) (.sys (.writeAt i off b) k')
  /-- a loop that reads to the end -/
  | read {h : Handle} {k : Option Bytes → Prog α} {q : Prog α} (next : Pieces (.reading h [] k) q) : Pieces (.at (.sys (.readAll h) k)) q
  | readSome {h : Handle} {buf : Bytes} (n want : Nat) (hn : n ≠ 0) {k k' : Option Bytes → Prog α}
      (stop : Pieces (.at (k none)) (k' none)) (done : Pieces (.at (k (some buf))) (k' (some [])))
      (next : ∀ b, b ≠ [] → Pieces (.reading h (buf ++ b) k) (k' (some b))) :
      Pieces (.reading h buf k) (.sys (.readAt h buf.length n want) k')
  | readRest {h : Handle} {buf : Bytes} {k k' : Option Bytes → Prog α} (stop : Pieces (.at (k none)) (k' none))
      (done : ∀ c, Pieces (.at (k (some (buf ++ c.drop buf.length)))) (k' (some c))) :
      Pieces (.reading h buf k) (.sys (.readAll h) k')
  /-- a loop that copies a file -/
  | copy {h : Handle} {i : Ino} {off : Nat} {K : Option Bytes → Prog α} {k : Bytes → Prog α} {e q : Prog α}
      (apart : ∀ j, h = .file j → j ≠ i ∨ off = 0) (none : K none = e)
      (some : ∀ c, K (some c) = .sys (.writeAt i off c) fun ok => if ok then k c else e)
      (next : Pieces (.copying h i off [] [] k e) q) : Pieces (.at (.sys (.readAll h) K)) q
  | copyRead {h : Handle} {i : Ino} {off : Nat} {buf pending : Bytes} {k : Bytes → Prog α} {e : Prog α} (n want : Nat) (hn : n ≠ 0)
      {k' : Option Bytes → Prog α} (stop : Pieces (.at e) (k' none))
      (done : Pieces (.at (.sys (.writeAt i (off + buf.length) pending) fun ok => if ok then k (buf ++ pending) else e)) (k' (some [])))
      (next : ∀ b, b ≠ [] → Pieces (.copying h i off buf (pending ++ b) k e) (k' (some b))) :
      Pieces (.copying h i off buf pending k e) (.sys (.readAt h (buf.length + pending.length) n want) k')
  | copyRest {h : Handle} {i : Ino} {off : Nat} {buf pending : Bytes} {k : Bytes → Prog α} {e : Prog α}
      {k' : Option Bytes → Prog α} (stop : Pieces (.at e) (k' none))
      (done : ∀ c, Pieces (.at (.sys (.writeAt i (off + buf.length) (pending ++ c.drop (buf.length + pending.length)))
        fun ok => if ok then k (buf ++ (pending ++ c.drop (buf.length + pending.length))) else e)) (k' (some c))) :
      Pieces (.copying h i off buf pending k e) (.sys (.readAll h) k')
  | copyWrite {h : Handle} {i : Ino} {off : Nat} {buf : Bytes} (b b' : Bytes) {k : Bytes → Prog α} {e : Prog α}
      {k' : Bool → Prog α} (stop : Pieces (.at e) (k' false)) (next : Pieces (.copying h i off (buf ++ b) b' k e) (k' true)) :
      Pieces (.copying h i off buf (b ++ b') k e) (.sys (.writeAt i (off + buf.length) b) k')

/-- `q` is `p` with its long calls in pieces. Environment of `/repo/src/storages/fs.rs`. -/
def InPieces {α : Type} (p q : Prog α) : Prop := Pieces (.at p) q

end S3
