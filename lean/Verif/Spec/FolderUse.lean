import Verif.Spec.MachineFolders
/-!
# Reading, copying and deleting folders like objects

What the abstract machine does when a folder key is given where the key of an object is expected: GET, HEAD, the source of a copy,
an entry of a DeleteObjects document, and (when the server hands trailing slashes on to the operating system) the destination of a
copy or of a completed upload.
-/
namespace S3.Spec
open S3

variable (A : Bytes → Bytes → Prop) (place : Bytes → Bytes → List Bytes)

/-- requests that read a folder key, copy from it, or list it in a DeleteObjects document; when trailing slashes are kept, also
copies onto a folder key and completions of uploads there -/
def FolderUse (keep : Bool) : Op → Prop
  | .getObject b k _ _ => ∃ cs, FolderKey A place b k cs
  | .headObject b k => ∃ cs, FolderKey A place b k cs
  | .copyObject b k src => (∃ sb sk cs, copySourceFromHeader src = .ok (sb, sk) ∧ FolderKey A place sb sk cs) ∨
      (keep = true ∧ ∃ cs, FolderKey A place b k cs)
  | .completeMultipartUpload b k _ _ => keep = true ∧ ∃ cs, FolderKey A place b k cs
  | .deleteObjects b ks => ∀ k ∈ ks, A b k ∨ ∃ cs, FolderKey A place b k cs
  | _ => False

/-- there is an object or a folder at this key -/
def Present (s : Machine) (b k : Bytes) : Prop :=
  (A b k ∧ s.bytes (place b k) ≠ none) ∨ ∃ cs, FolderKey A place b k cs ∧ s.folder (b :: cs) = true

open Classical in
/-- the keys of a list at which there is something -/
noncomputable def present (s : Machine) (b : Bytes) (ks : List Bytes) : List Bytes := ks.filter fun k => decide (Present A place s b k)

/-- Objects deleted one after the other. The end comes at the first that is gone already (because the list has it twice), and at the
first folder. -/
inductive RemovesEach (b : Bytes) : Machine → List Bytes → Bool → Machine → Prop
  | nil (s : Machine) : RemovesEach b s [] true s
  | object {s t : Machine} {k : Bytes} {ks : List Bytes} {r : Bool} : A b k → s.bytes (place b k) ≠ none →
      RemovesEach b { s with bytes := setBytes s.bytes (place b k) none } ks r t → RemovesEach b s (k :: ks) r t
  | gone {s : Machine} {k : Bytes} {ks : List Bytes} : A b k → s.bytes (place b k) = none → RemovesEach b s (k :: ks) false s
  | folder {s : Machine} {k : Bytes} {ks : List Bytes} {cs : List Bytes} : FolderKey A place b k cs → RemovesEach b s (k :: ks) false s

/-- What the machine answers to such requests, and what it becomes; `n` is the length the file system tells for directories. A HEAD
shows a folder as an object of that length, without metadata. A GET never succeeds. A folder is never copied, and nothing is copied
or completed onto a folder. A DeleteObjects fails at a folder; what comes before it in the list is deleted. -/
inductive FolderAnswer (n : Nat) (s : Machine) : Op → Outcome Answer → Machine → Prop
  | headNone {b k cs} : FolderKey A place b k cs → s.folder (b :: cs) = false → FolderAnswer n s (.headObject b k) (.err .NoSuchKey) s
  | head {b k cs} : FolderKey A place b k cs → s.folder (b :: cs) = true → n ≤ i64Max →
      FolderAnswer n s (.headObject b k) (.ok (.head n none)) s
  | headLong {b k cs} : FolderKey A place b k cs → s.folder (b :: cs) = true → i64Max < n →
      FolderAnswer n s (.headObject b k) (.err .InternalError) s
  | getRange {b k r w cs} : FolderKey A place b k cs → askedRange r = none → FolderAnswer n s (.getObject b k r w) (.err .InvalidRequest) s
  | getNone {b k r w cs} : FolderKey A place b k cs → askedRange r ≠ none → s.folder (b :: cs) = false →
      FolderAnswer n s (.getObject b k r w) (.err .NoSuchKey) s
  | getOutside {b k r w cs x} : FolderKey A place b k cs → askedRange r = some x → s.folder (b :: cs) = true → slice n x = none →
      FolderAnswer n s (.getObject b k r w) (.err .InvalidRange) s
  | get {b k r w cs x} : FolderKey A place b k cs → askedRange r = some x → s.folder (b :: cs) = true → slice n x ≠ none →
      FolderAnswer n s (.getObject b k r w) (.err .InternalError) s
  | copy {b k src sb sk cs} : copySourceFromHeader src = .ok (sb, sk) → FolderKey A place sb sk cs →
      FolderAnswer n s (.copyObject b k src) (.err .InternalError) s
  | onto {b k src cs x} : FolderKey A place b k cs → copySourceFromHeader src = .ok x →
      FolderAnswer n s (.copyObject b k src) (.err .InternalError) s
  | ontoUnread {b k src cs} : FolderKey A place b k cs → (∀ x, copySourceFromHeader src ≠ .ok x) →
      FolderAnswer n s (.copyObject b k src) (.err .InvalidRequest) s
  | complete {b k u l cs} : FolderKey A place b k cs → FolderAnswer n s (.completeMultipartUpload b k u (some l)) (.err .InternalError) s
  | completeNone {b k u cs} : FolderKey A place b k cs → FolderAnswer n s (.completeMultipartUpload b k u none) (.err .InvalidPart) s
  | deleted {b ks t} : RemovesEach A place b s (present A place s b ks) true t →
      FolderAnswer n s (.deleteObjects b ks) (.ok (.keys (present A place s b ks))) t
  | stopped {b ks t} : RemovesEach A place b s (present A place s b ks) false t →
      FolderAnswer n s (.deleteObjects b ks) (.err .InternalError) t

/-- a history of requests with their answers leads the machine from one state to another; the requests are about the addresses in
`A`, make, delete or use folders, or only read (the answers to readings of anything else are left open) -/
inductive Runs (ext : Ext) (keep : Bool) (n : Nat) : Machine → List (Op × Outcome Answer) → Machine → Prop
  | nil (s : Machine) : Runs ext keep n s [] s
  | served {s t : Machine} {o : Op} {a : Outcome Answer} {l : List (Op × Outcome Answer)} : Served A o →
      s.answer ext place o = some a → Runs ext keep n (s.after place o) l t → Runs ext keep n s ((o, a) :: l) t
  | folder {s s' t : Machine} {q : List Bytes} {o : Op} {a : Outcome Answer} {l : List (Op × Outcome Answer)} :
      FolderOp A place q o → FolderStep s q o a s' → Runs ext keep n s' l t → Runs ext keep n s ((o, a) :: l) t
  | use {s s' t : Machine} {o : Op} {a : Outcome Answer} {l : List (Op × Outcome Answer)} : FolderUse A place keep o →
      FolderAnswer A place n s o a s' → Runs ext keep n s' l t → Runs ext keep n s ((o, a) :: l) t
  | watching {s t : Machine} {o : Op} {a : Outcome Answer} {l : List (Op × Outcome Answer)} : Watching o → ¬ Served A o →
      ¬ FolderUse A place keep o → Runs ext keep n s l t → Runs ext keep n s ((o, a) :: l) t

/-- no folder key has a record of metadata -/
def Unrecorded (cfg : Cfg) (fs : FS) : Prop := ∀ b k cs, FolderKey A place b k cs → fs.lookup (cfg.root ++ [metadataName b k]) = none

end S3.Spec
