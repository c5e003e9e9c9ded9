import Verif.Model.Auth
/-! C63: the access key store. -/
namespace S3

/-- the secret registered last under `key` in a history of registrations (oldest first) -/
def Spec.lastRegistered (key : Bytes) : List (Bytes × Bytes) → Option Bytes
  | [] => none
  | (k, s) :: t =>
    match Spec.lastRegistered key t with
    | some s' => some s'
    | none => if k = key then some s else none

/-- run a history of registrations -/
def registerAll (a : SimpleAuth) (rs : List (Bytes × Bytes)) : SimpleAuth :=
  rs.foldl (fun a r => a.register r.1 r.2) a

theorem lookup_register (a : SimpleAuth) (k s key : Bytes) :
    (a.register k s).lookup key = if k = key then some s else a.lookup key := by
  simp only [SimpleAuth.lookup, SimpleAuth.register]
  by_cases h : k = key
  · simp [h]
  · simp only [h, if_false]
    have : (k == key) = false := by simpa using h
    rw [List.find?_cons_of_neg (by simp [this])]
    rw [List.find?_filter]
    congr 1
    congr 1
    funext p
    by_cases hp : p.1 = key
    · subst hp; simp; exact fun h' => h h'.symm
    · simp [hp]

theorem lookup_registerAll (a : SimpleAuth) (rs : List (Bytes × Bytes)) (key : Bytes) :
    (registerAll a rs).lookup key =
      match Spec.lastRegistered key rs with
      | some s => some s
      | none => a.lookup key := by
  induction rs generalizing a with
  | nil => rfl
  | cons r t ih =>
    obtain ⟨k, s⟩ := r
    have : registerAll a ((k, s) :: t) = registerAll (a.register k s) t := rfl
    rw [this, ih, lookup_register]
    simp only [Spec.lastRegistered]
    cases Spec.lastRegistered key t with
    | some s' => rfl
    | none => by_cases h : k = key <;> simp [h]

/-- **C63** after any history of registrations, asking for the secret of a key gives the secret
registered last under it, and `NotSignedUp` iff none was. -/
theorem C63_access_key_store (rs : List (Bytes × Bytes)) (key : Bytes) :
    (registerAll SimpleAuth.new rs).getSecret key =
      match Spec.lastRegistered key rs with
      | some s => .ok s
      | none => .error .notSignedUp := by
  simp only [SimpleAuth.getSecret, lookup_registerAll]
  cases Spec.lastRegistered key rs <;> rfl

theorem Spec.lastRegistered_none (key : Bytes) (rs : List (Bytes × Bytes)) :
    Spec.lastRegistered key rs = none ↔ ∀ s, (key, s) ∉ rs := by
  induction rs with
  | nil => simp [lastRegistered]
  | cons r t ih =>
    obtain ⟨k, s⟩ := r
    simp only [lastRegistered]
    cases h : lastRegistered key t with
    | some s' =>
      simp only [reduceCtorEq, false_iff]
      intro hall
      have : lastRegistered key t = none := ih.mpr fun s hs => hall s (by simp [hs])
      rw [h] at this; cases this
    | none =>
      have := ih.mp h
      by_cases hk : k = key
      · subst hk
        simp only [if_true, reduceCtorEq, false_iff]
        intro hall; exact hall s (by simp)
      · simp only [hk, if_false, true_iff]
        intro s' hm
        rcases List.mem_cons.mp hm with e | hm
        · cases e; exact hk rfl
        · exact this s' hm

/-- **C63** (error case) the lookup fails iff the key was never registered. -/
theorem C63_unknown_iff (rs : List (Bytes × Bytes)) (key : Bytes) :
    (registerAll SimpleAuth.new rs).getSecret key = .error .notSignedUp ↔ ∀ s, (key, s) ∉ rs := by
  rw [C63_access_key_store, ← Spec.lastRegistered_none]
  cases Spec.lastRegistered key rs <;> simp

/-! Non-vacuity -/
example : (registerAll SimpleAuth.new [(b!"k", b!"1"), (b!"j", b!"2"), (b!"k", b!"3")]).getSecret b!"k"
    = .ok b!"3" := by decide +kernel

end S3
