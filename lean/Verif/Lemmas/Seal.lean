import Verif.Spec.Seal
import Verif.Lemmas.Protect
import Verif.Lemmas.Base64
namespace S3
open Spec

theorem stamp_length {ts : Bytes} {d : AmzDate} (h : AmzDate.fromHeaderStr ts = some d) : ts.length = 16 := by
  simp only [AmzDate.fromHeaderStr, Option.bind_eq_bind, Option.bind_eq_some_iff, Prod.exists] at h
  obtain ⟨y, mo, dd, hh, mi, se, hg, _⟩ := h
  obtain ⟨hs, ⟨l1, l2, l3, l4, l5, l6⟩, _⟩ := groups_some.mp hg
  rw [hs]; simp [l1, l2, l3, l4, l5, l6]

theorem base64Digit_no_lf : ∀ n, (10 : UInt8) ∉ base64Digit n := by
  intro n h
  have := List.mem_of_mem_drop (List.mem_of_mem_take h)
  exact absurd this (by decide)

theorem base64Text_no_lf (s : Bytes) : (10 : UInt8) ∉ base64Text s := by
  have e : (10 : UInt8) ∉ b!"==" ∧ (10 : UInt8) ∉ b!"=" := by decide
  induction s using base64Text.induct with
  | case1 => exact List.not_mem_nil
  | case2 => simp [base64Text, base64Digit_no_lf]
  | case3 => simp [base64Text, base64Digit_no_lf]
  | case4 a b c r ih => simp [base64Text, base64Digit_no_lf, ih]

/-- what else is known of the two sides of a signature -/
def SealOk (r : Req) : SignedThing → Seal → Prop
  | .request ts _ _ _ _ _, _ => ts.length = 16 ∧ ∀ h ∈ r.headers, ∀ c ∈ h.2, c = 9 ∨ ((32 : UInt8) ≤ c ∧ c ≤ 126)
  | .policy t, _ => (10 : UInt8) ∉ t

/-- an admitted request carries a signature that stands for it -/
theorem admit_signs {lib : Lib} (hc : CryptoLaw lib.crypto) {p : Provider} {r : Req} {c' : Ctx} (h : admit lib (some p) r = .ok c') :
    ∃ w s, Signs lib p r w s ∧ SealOk r w s := by
  obtain ⟨c, hm, h⟩ := admit_ok.mp h
  have vis := headers_plain hm.headers
  simp only [checkSignature] at h
  split at h
  · rename_i m hf
    obtain ⟨p', b, f, e, hb, ht, hp, _⟩ := checkPostSignature_ok.mp h
    cases e
    obtain ⟨i, cred, rest, date, secret, ho⟩ := checkPostForm_ok.mp hp
    obtain ⟨h1, h2, h3, h4, h5⟩ := findInfo_some.mp ho.info
    have look : ∀ {n v}, findField f.fields n = some v → LastField f.fields n v := fun hv => ((C53_field_lookup f.fields _).1 _).mp hv
    obtain ⟨data, hd⟩ := isBase64_iff.mp ho.policy
    rw [hd] at h1
    have hu : UploadsForm lib r f := by
      refine ⟨b, ?_, ?_⟩
      · rw [← hb]; exact formMime_some hm hf
      · rw [← hm.body]; exact ht
    refine ⟨_, _, .form hu ho.secret (look h1) (look h3) ho.credential (look h4) (look h5) ?_, base64Text_no_lf data⟩
    rw [← ho.signature, calculateSignature_eq ho.dateOk, hd]
  · split at h
    · rename_i qs hq
      obtain ⟨u, x, pr, secret, h1, h2, e, h3, h4, _⟩ := checkPresignedUrl_ok.mp h
      cases e
      obtain ⟨hq1, _⟩ := presignedQuery_some.mp hq
      have := hm.qs_sort hq1
      subst this
      obtain ⟨cred, ts, ex, names, hp⟩ := presigned_parts.mp h1
      obtain ⟨hs', t, g1, g2, g3⟩ := presignedSignature_eq hm (cr := lib.crypto) (p := u) hp.dateOk (secret := secret)
      refine ⟨_, _, .presigned (credential := u.credential) (cred := cred) (timestamp := ts) (signature := u.signature) (names := names)
        (covered := coveredNames u.signedHeaders) (hs := hs') (canonical := t) h3
        ⟨hm.qs_mem hp.signed, ?_, ?_, hm.qs_mem hp.credential, hp.credentialOk, hm.qs_mem hp.date, hm.qs_mem hp.signature, g1, g2, ?_⟩,
        stamp_length hp.dateOk, vis⟩
      · intro n hn
        rw [← hp.namesSplit]
        exact (List.mem_filter.mp hn).1
      · intro hsorted n hn
        rw [← hp.namesSplit] at hsorted hn
        exact coveredNames_sorted hsorted hn
      · rw [← g3, h4]
    · rcases checkHeaderAuth_ok.mp h with ⟨_, e, _⟩ | ⟨v, a, hv, ha, h⟩
      · cases e
      · obtain ⟨p', ts, secret, sha, date, pl, bd, e, ho⟩ := checkAuthorization_ok.mp h
        cases e
        obtain ⟨d, hd1, hd2⟩ := extractSha_ok.mp ho.sha
        obtain ⟨hs, t, h1, h2, h3⟩ := headerSignature_eq hm (cr := lib.crypto) (a := a) ho.dateOk (pl := pl) (secret := secret)
        refine ⟨_, _, .header (timestamp := ts) (declared := d) (hs := hs) (canonical := t) (hm.header_mem hv) ha ho.secret
          ⟨hm.header_mem ho.stamp, hm.header_mem hd1, h1, ?_, h2, ?_⟩, stamp_length ho.dateOk, vis⟩
        · have := payloadLine_of hc hd2 ho.payloadOk
          rwa [hm.body] at this
        · rw [← h3, ho.signature]

/-- two computations of HMAC with the same result agree everywhere, or they clash -/
theorem macs_agree {cr : Crypto} {s s' : Seal}
    (e : hexText (cr.hmac (signKey cr s.secret s.day s.region) s.text) = hexText (cr.hmac (signKey cr s'.secret s'.day s'.region) s'.text))
    (hd : s.day.length ≤ 8) (hd' : s'.day.length ≤ 8) :
    (s.secret = s'.secret ∧ s.day = s'.day ∧ s.region = s'.region ∧ s.text = s'.text) ∨ MacClash cr s s' := by
  have e := hexText_injective e
  simp only [signKey, scopeParts, List.foldl_cons, List.foldl_nil, List.take_of_length_le hd, List.take_of_length_le hd'] at e
  by_cases c : MacClash cr s s'
  · exact .inr c
  refine .inl ?_
  have key : ∀ x ∈ (s.macs cr).zip (s'.macs cr), cr.hmac x.1.1 x.1.2 = cr.hmac x.2.1 x.2.2 → x.1 = x.2 := by
    intro x hx hxe
    exact Classical.byContradiction fun hne => c ⟨x, hx, hne, hxe⟩
  simp only [Seal.macs, List.zip_cons_cons, List.zip_nil_right, List.mem_cons, List.not_mem_nil, or_false, forall_eq_or_imp, forall_eq] at key
  obtain ⟨k1, k2, k3, k4, k5⟩ := key
  have e5 := k5 e
  have e4 := k4 (congrArg Prod.fst e5)
  have e3 := k3 (congrArg Prod.fst e4)
  have e2 := k2 (congrArg Prod.fst e3)
  have e1 := k1 (congrArg Prod.fst e2)
  exact ⟨List.append_cancel_left (congrArg Prod.fst e1), congrArg Prod.snd e1, congrArg Prod.snd e2, congrArg Prod.snd e5⟩

theorem textToSign_full_inj {cr : Crypto} {ts ts' region region' c c' : Bytes} (hl : ts.length = 16) (hl' : ts'.length = 16)
    (hr : region = region') (h : textToSign cr ts region c = textToSign cr ts' region' c') :
    ts = ts' ∧ cr.sha256 c = cr.sha256 c' := by
  subst hr
  simp only [textToSign, joinWith] at h
  simp only [List.append_assoc, List.cons_append, List.append_cancel_left_eq, List.cons.injEq, true_and] at h
  obtain ⟨e, h⟩ := List.append_inj h (hl.trans hl'.symm)
  subst e
  simp only [List.append_cancel_left_eq, List.cons.injEq, true_and] at h
  exact ⟨rfl, hexText_injective h⟩

theorem textToSign_lf (cr : Crypto) (ts region c : Bytes) : (10 : UInt8) ∈ textToSign cr ts region c := by
  simp [textToSign, joinWith]

/-- the signature of a seal, recomputed -/
theorem Spec.Signs.correct {lib : Lib} {p : Provider} {r : Req} {w : SignedThing} {s : Seal} (h : Signs lib p r w s) :
    s.signature = hexText (lib.crypto.hmac (signKey lib.crypto s.secret s.day s.region) s.text) ∧ s.day.length ≤ 8 := by
  have take : ∀ x : Bytes, (x.take 8).take 8 = x.take 8 := fun x => by rw [List.take_take]; rfl
  cases h with
  | header c pa k sg => exact ⟨by simp only [signKey, scopeParts, take]; exact sg.correct, by simp only [List.length_take]; omega⟩
  | presigned k sg => exact ⟨by simp only [signKey, scopeParts, take]; exact sg.correct, by simp only [List.length_take]; omega⟩
  | form u k h1 h2 h3 h4 h5 sg => exact ⟨by simp only [signKey, scopeParts, take]; exact sg, by simp only [List.length_take]; omega⟩

/-- the parts of a signature that stands for a request -/
theorem Spec.Signs.request {lib : Lib} {p : Provider} {r : Req} {ts m path pl : Bytes} {q hs : List (Bytes × Bytes)} {s : Seal}
    (h : Signs lib p r (.request ts m path q hs pl) s) (hp : HttpPlain r) (ok : SealOk r (.request ts m path q hs pl) s) :
    s.text = textToSign lib.crypto ts s.region s.canonical ∧ CanonicalText m (awsEncode true path) q hs pl s.canonical ∧
      (10 : UInt8) ∉ m ∧ PlainHeaders hs ∧ (10 : UInt8) ∉ pl := by
  cases h with
  | header c pa k sg => exact ⟨rfl, sg.text, hp.method, plain_of_signed hp ok.2 sg.headers, payloadLine_no_lf sg.line⟩
  | presigned k sg => exact ⟨rfl, sg.text, hp.method, plain_of_signed hp ok.2 sg.headers, by decide⟩

theorem Spec.Signs.policy {lib : Lib} {p : Provider} {r : Req} {t : Bytes} {s : Seal} (h : Signs lib p r (.policy t) s) : s.text = t := by
  cases h; rfl

/-- two signatures that are equal stand for the same thing, or there is a collision -/
theorem signs_agree {lib : Lib} {p p' : Provider} {r r' : Req} {w w' : SignedThing} {s s' : Seal} (h : Signs lib p r w s) (h' : Signs lib p' r' w' s')
    (hp : HttpPlain r) (hp' : HttpPlain r') (ok : SealOk r w s) (ok' : SealOk r' w' s') (e : s.signature = s'.signature) :
    (w.same w' ∧ s.secret = s'.secret ∧ s.day = s'.day ∧ s.region = s'.region) ∨
      MacClash lib.crypto s s' ∨ Collides lib.crypto.sha256 s.canonical s'.canonical := by
  rw [h.correct.1, h'.correct.1] at e
  rcases macs_agree e h.correct.2 h'.correct.2 with ⟨e1, e2, e3, e4⟩ | c
  · cases w with
    | request ts m path q hs pl =>
      obtain ⟨t1, t2, t3, t4, t5⟩ := h.request hp ok
      cases w' with
      | request ts' m' path' q' hs' pl' =>
        obtain ⟨u1, u2, u3, u4, u5⟩ := h'.request hp' ok'
        rw [t1, u1] at e4
        obtain ⟨e5, e6⟩ := textToSign_full_inj ok.1 ok'.1 e3 e4
        by_cases ec : s.canonical = s'.canonical
        · rw [← ec] at u2
          obtain ⟨a, b, c, d, f⟩ := canonicalText_inj t3 u3 t4 u4 t5 u5 t2 u2
          exact .inl ⟨⟨e5, a, b, c, d, f⟩, e1, e2, e3⟩
        · exact .inr (.inr ⟨ec, e6⟩)
      | policy t =>
        rw [t1, h'.policy] at e4
        exact absurd (e4 ▸ textToSign_lf _ _ _ _) ok'
    | policy t =>
      cases w' with
      | request ts' m' path' q' hs' pl' =>
        obtain ⟨u1, _⟩ := h'.request hp' ok'
        rw [u1, h.policy] at e4
        exact absurd (e4 ▸ textToSign_lf _ _ _ _) ok
      | policy t' =>
        rw [h.policy, h'.policy] at e4
        exact .inl ⟨e4, e1, e2, e3⟩
  · exact .inr (.inl c)

end S3
