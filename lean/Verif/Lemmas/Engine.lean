import Verif.Spec.Prim
import Verif.Spec.Engine
import Verif.Model.Toy
import Verif.Lemmas.Codec
set_option linter.unusedSimpArgs false
namespace Wickr

theorem Res.toOption_some {α : Type} {x : Res α} {a : α} : x.toOption = some a ↔ x = .ok a := by
  cases x <;> simp [Res.toOption]

theorem Res.toOption_ofOption {α : Type} (x : Option α) : (Res.ofOption x).toOption = x := by
  cases x <;> rfl

theorem aesEncrypt_ok (P : Prim) (hP : P.Lawful) {pt : Bytes} {aad : Option Bytes} {k : CipherKey}
    {iv : Bytes} (h1 : pt.length + 1 ≤ maxBuffer) (hk : k.key.length = k.cipher.keyLen)
    (hi : iv.length = k.cipher.ivLen) (ha : aad.isSome → k.cipher.isAuth = true) :
    aesEncrypt P pt aad k iv = .ok (match k.cipher with
      | .gcm => ⟨.gcm, iv, some (P.gcm k.key iv aad pt).1, some (P.gcm k.key iv aad pt).2⟩
      | .ctr => ⟨.ctr, iv, some (P.ctr k.key iv pt), none⟩) := by
  have hmb := maxBuffer_val
  have hiv : dup iv = some iv := by
    apply dup_of; constructor
    · rw [hi]; cases k.cipher <;> decide
    · rw [hi, hmb]; cases k.cipher <;> decide
  have ht : iv.take k.cipher.ivLen = iv := by rw [← hi]; exact List.take_length
  unfold aesEncrypt
  have c1 : ¬ ((aad.isSome && !k.cipher.isAuth) = true) := by
    intro h
    simp only [Bool.and_eq_true, Bool.not_eq_true'] at h
    have := ha h.1; rw [this] at h; exact absurd h.2 (by simp)
  have c2 : ¬ (k.key.length ≠ k.cipher.keyLen ∨ pt.length > intMax) := by
    unfold intMax; omega
  rw [if_neg c1, if_neg c2, hiv]
  have c3 : ¬ ¬ (0 < pt.length + 1 ∧ pt.length + 1 ≤ maxBuffer) := by omega
  have c4 : ¬ (iv.length < k.cipher.ivLen) := by omega
  show (if ¬ (0 < pt.length + 1 ∧ pt.length + 1 ≤ maxBuffer) then _ else _) = _
  rw [if_neg c3, if_neg c4, ht]
  have hl := hP.gcm_len k.key iv aad pt
  cases hc : k.cipher with
  | gcm =>
    rw [hc] at hi
    simp only [cipherResultCreate, hi, hl.2, Cipher.tagLen]
    rfl
  | ctr =>
    rw [hc] at hi
    simp only [cipherResultCreate, hi]
    rfl

theorem aesDecrypt_of (P : Prim) {r : CipherResult} {aad : Option Bytes} {k : CipherKey} {b : Bool}
    {ct : Bytes} (hct : r.ct = some ct) (hv : ValidBuf ct) (hb : b = true → r.cipher.isAuth = true)
    (ha : aad.isSome → r.cipher.isAuth = true) (hc : k.cipher = r.cipher)
    (hw : Spec.WfCipherResult r) (hk : k.key.length = r.cipher.keyLen) :
    aesDecrypt P r aad k b = (match r.cipher, r.tag with
      | .gcm, some t => Res.ofOption (P.gcmOpen k.key r.iv aad ct t)
      | .gcm, none => .null
      | .ctr, _ => .ok (P.ctr k.key r.iv ct)) := by
  have hmb := maxBuffer_val
  obtain ⟨hiv, htag, _⟩ := hw
  unfold aesDecrypt
  rw [hct]
  have c1 : ¬ ((b && !r.cipher.isAuth) = true) := by
    intro h
    simp only [Bool.and_eq_true, Bool.not_eq_true'] at h
    have := hb h.1; rw [this] at h; exact absurd h.2 (by simp)
  have c2 : ¬ ((aad.isSome && !r.cipher.isAuth) = true) := by
    intro h
    simp only [Bool.and_eq_true, Bool.not_eq_true'] at h
    have := ha h.1; rw [this] at h; exact absurd h.2 (by simp)
  have c3 : ¬ (k.cipher.id ≠ r.cipher.id ∨ ct.length > intMax) := by
    rw [hc]; unfold intMax; have := hv.2; simp; omega
  have c5 : ¬ (k.key.length < r.cipher.keyLen ∨ r.iv.length < r.cipher.ivLen) := by omega
  have tk : k.key.take r.cipher.keyLen = k.key := by rw [← hk]; exact List.take_length
  have ti : r.iv.take r.cipher.ivLen = r.iv := by rw [← hiv]; exact List.take_length
  simp only [if_neg c1, if_neg c2, if_neg c3]
  cases hcc : r.cipher with
  | gcm =>
    rw [hcc] at htag c5 tk ti
    simp only [Cipher.isAuth, if_true] at htag
    obtain ⟨t, ht, htl⟩ := htag
    simp [tagLenOk, hcc, ht, htl, Cipher.isAuth, hv, c5, tk, ti]
  | ctr =>
    rw [hcc] at htag c5 tk ti
    simp [Cipher.isAuth, hv, c5, tk, ti]

theorem evpPublic_i2o (P : Prim) (hP : P.Lawful) (p : P.Pub) :
    evpPublic P (Curve.p521.id :: P.i2o p) = some p := by
  have := (hP.i2o_len p).1
  unfold evpPublic
  simp only [List.length_cons]
  rw [if_neg (by omega)]
  simp [Curve.find_id, hP.o2i_i2o]

theorem pubToBuffer_ok (P : Prim) (hP : P.Lawful) (p : P.Pub) :
    pubToBuffer P .p521 p = some (Curve.p521.id :: P.i2o p) := by
  have := hP.i2o_len p
  have hmb := maxBuffer_val
  unfold pubToBuffer; apply dup_of; unfold ValidBuf; simp only [List.length_cons]; omega

theorem priToBuffer_ok (P : Prim) (hP : P.Lawful) (s : P.Pri) : priToBuffer P s = some (P.i2d s) := by
  have := hP.i2d_len s
  have hmb := maxBuffer_val
  unfold priToBuffer; apply dup_of; unfold ValidBuf; omega

theorem ecKeyImport_pri (P : Prim) (hP : P.Lawful) {b : Bytes} {k : EcKey}
    (h : ecKeyImport P b true = some k) :
    ∃ s, P.d2i b = some s ∧ P.isInf (P.pubOf s) = false ∧ k.curve = .p521 ∧
      k.pub = Curve.p521.id :: P.i2o (P.pubOf s) ∧ k.pri = some (P.i2d s) := by
  unfold ecKeyImport at h
  simp only [if_true] at h
  split at h
  · simp at h
  · next s hs =>
    split at h
    · simp at h
    · next hi =>
      split at h
      · simp at h
      · rw [pubToBuffer_ok P hP, priToBuffer_ok P hP] at h
        simp at h
        refine ⟨s, hs, by simpa using hi, ?_, ?_, ?_⟩ <;> rw [← h]

theorem ecKeyImport_pub (P : Prim) (hP : P.Lawful) {b : Bytes} {k : EcKey}
    (h : ecKeyImport P b false = some k) :
    ∃ p, evpPublic P b = some p ∧ P.isInf p = false ∧ k = ⟨.p521, Curve.p521.id :: P.i2o p, none⟩ := by
  unfold ecKeyImport at h
  simp only [Bool.false_eq_true, if_false] at h
  split at h
  · simp at h
  · next p hp =>
    split at h
    · simp at h
    · next hi =>
      rw [pubToBuffer_ok P hP] at h
      simp at h
      exact ⟨p, hp, by simpa using hi, h.symm⟩

theorem KeyPair.scalar (P : Prim) (hP : P.Lawful) {k : EcKey} (h : (defaultEngine P).KeyPair k) :
    ∃ p s, k.pri = some p ∧ P.d2i p = some s ∧ k.pub = Curve.p521.id :: P.i2o (P.pubOf s) := by
  obtain ⟨p, hp, hi, _⟩ := h.pri
  obtain ⟨s, hs, _, _, hpub, _⟩ := ecKeyImport_pri P hP hi
  exact ⟨p, s, hp, hs, hpub⟩

theorem dupOpt_self {o : Option Bytes} (h : ∀ x, o = some x → 0 < x.length ∧ x.length ≤ maxBuffer) :
    dupOpt o = some o := dupOpt_of h

theorem hkdfChecks_pass {ikm : Bytes} {salt info : Option Bytes} {n : Nat} {run : Option Bytes}
    (hi : ikm.length ≤ 1024) (hs : (optBytes salt).length ≤ maxBuffer)
    (hf : (optBytes info).length ≤ 1024) (hn : 0 < n) (hn2 : n ≤ 255) :
    hkdfChecks ikm salt info n run = run := by
  have hmb := maxBuffer_val
  unfold hkdfChecks intMax
  have c1 : ¬ (optBytes info).length > 1024 := by omega
  have c2 : ¬ (optBytes salt).length > 2147483647 := by omega
  have c3 : ¬ ikm.length > 2147483647 := by omega
  have c4 : ¬ ¬ (0 < n ∧ n ≤ maxBuffer) := by omega
  rw [if_neg c1, if_neg c2, if_neg c3, if_neg c4]

theorem defaultEngine_lawful (P : Prim) (hP : P.Lawful) : (defaultEngine P).Lawful where
  enc_dec pt aad k iv h0 h1 hk hi ha := by
    have hmb := maxBuffer_val
    have he := aesEncrypt_ok P hP h1 hk hi ha
    have hl := hP.gcm_len k.key iv aad pt
    have hl2 := hP.ctr_len k.key iv pt
    cases k with
    | mk c key =>
    simp only at *
    cases c with
    | gcm =>
      have hw : Spec.WfCipherResult
          ⟨.gcm, iv, some (P.gcm key iv aad pt).1, some (P.gcm key iv aad pt).2⟩ := by
        refine ⟨hi, ⟨_, rfl, hl.2⟩, ?_⟩
        intro c hc he'; cases hc; rw [he'] at hl; simp at hl; omega
      refine ⟨_, _, ?_, rfl, rfl, hw, rfl, hl.1, ?_⟩
      · show (aesEncrypt P pt aad ⟨.gcm, key⟩ iv).toOption = _
        rw [he]; rfl
      · intro b hb
        show (aesDecrypt P _ aad ⟨.gcm, key⟩ b).toOption = _
        rw [aesDecrypt_of P rfl ⟨by omega, by omega⟩ hb ha rfl hw hk]
        simp [hP.gcm_open, Res.toOption_ofOption]
    | ctr =>
      have hw : Spec.WfCipherResult ⟨.ctr, iv, some (P.ctr key iv pt), none⟩ := by
        refine ⟨hi, rfl, ?_⟩
        intro c hc he'; cases hc; rw [he'] at hl2; simp at hl2; omega
      refine ⟨_, _, ?_, rfl, rfl, hw, rfl, hl2, ?_⟩
      · show (aesEncrypt P pt aad ⟨.ctr, key⟩ iv).toOption = _
        rw [he]; rfl
      · intro b hb
        show (aesDecrypt P _ aad ⟨.ctr, key⟩ b).toOption = _
        rw [aesDecrypt_of P rfl ⟨by omega, by omega⟩ hb ha rfl hw hk]
        simp [hP.ctr_inv, Res.toOption]
  enc_out pt aad k iv r h := by
    have h' : aesEncrypt P pt aad k iv = .ok r := Res.toOption_some.1 h
    have hcr : ∀ c iv ct tag r, cipherResultCreate c iv ct tag = some r → r.cipher = c ∧ r.iv = iv := by
      intro c iv ct tag r h
      unfold cipherResultCreate at h
      repeat' split at h
      all_goals first | (simp at h; done) | (injection h with h; subst h; exact ⟨rfl, rfl⟩)
    have hof : ∀ (o : Option CipherResult) r, Res.ofOption o = .ok r → o = some r := by
      intro o r h; cases o <;> simp_all [Res.ofOption]
    unfold aesEncrypt at h'
    split at h'
    · simp at h'
    · split at h'
      · simp at h'
      · split at h'
        · simp at h'
        · next ivf hd =>
          have hi := (dup_eq_some.1 hd).2
          split at h'
          · simp at h'
          · split at h'
            · simp at h'
            · dsimp only at h'
              split at h' <;> next hk =>
                have := hcr _ _ _ _ _ (hof _ _ h')
                rw [hk]; exact ⟨this.1, this.2.trans hi⟩
  dec_auth r aad k pt h := by
    have h' : aesDecrypt P r aad k true = .ok pt := Res.toOption_some.1 h
    unfold aesDecrypt at h'
    split at h'
    · simp at h'
    · split at h'
      · simp at h'
      · next hc => simpa using hc
  dec_cipher r aad k b pt h := by
    have h' : aesDecrypt P r aad k b = .ok pt := Res.toOption_some.1 h
    unfold aesDecrypt at h'
    split at h'
    · simp at h'
    · split at h'
      · simp at h'
      · split at h'
        · simp at h'
        · split at h'
          · simp at h'
          · next hc =>
            have : k.cipher.id = r.cipher.id := by
              apply Decidable.byContradiction; intro hn; exact hc (Or.inl hn)
            revert this
            cases r.cipher <;> cases k.cipher <;> decide
  digest_len b s d := ⟨_, rfl, hP.sha_len d _⟩
  hmac_len b k d := by
    refine ⟨P.hmac d k b, ?_, hP.hmac_len d k b⟩
    show hmacCreate P b k d = _
    unfold hmacCreate
    simp [hP.hmac_len]
  import_len b p k h := by
    cases p with
    | true =>
      obtain ⟨s, _, _, hc, hp, hq⟩ := ecKeyImport_pri P hP h
      have := hP.i2o_len (P.pubOf s)
      rw [hp, hq, hc]; simp [Curve.maxPub]; omega
    | false =>
      obtain ⟨q, _, _, rfl⟩ := ecKeyImport_pub P hP h
      have := hP.i2o_len q
      simp [Curve.maxPub]; omega
  sign_verify k data d nonce hk := by
    obtain ⟨p, s, hp, hs, hpub⟩ := KeyPair.scalar P hP hk
    obtain ⟨sig, h1, h2, h3, h4⟩ := hP.sign_verify s d data nonce
    refine ⟨⟨k.curve, d, sig⟩, ?_, rfl, rfl, h2, ?_, ?_⟩
    · show ecSign P k data d nonce = _
      simp [ecSign, hp, hs, h1]
    · cases k.curve; simp [Curve.sigSize]; omega
    · intro k' hk'
      show ecVerify P _ k' data = true
      simp [ecVerify, hk', hpub, evpPublic_i2o P hP, h4]
  verify_pub s k k' data h := by
    show ecVerify P s k' data = ecVerify P s k data
    simp [ecVerify, h]
  dh_comm a b a' b' ha hb ha' hb' := by
    obtain ⟨p, s, hp, hs, hpub⟩ := KeyPair.scalar P hP ha
    obtain ⟨q, t, hq, ht, hqub⟩ := KeyPair.scalar P hP hb
    obtain ⟨z, h1, h2, h3, h4⟩ := hP.ecdh_comm s t
    refine ⟨z, h3, h4, ?_, ?_⟩
    · show genSharedSecret P a b' = _
      simp [genSharedSecret, hp, hs, hb', hqub, evpPublic_i2o P hP, h1]
    · show genSharedSecret P b a' = _
      simp [genSharedSecret, hq, ht, ha', hpub, evpPublic_i2o P hP, h2]
  hkdf_len d n salt info pass hn hp0 hp hi hs ho := by
    have hn2 : n.toNat ≤ 255 := by have := n.toNat_lt; omega
    have hmb := maxBuffer_val
    have hso : (optBytes salt).length ≤ maxBuffer := by
      cases salt with
      | none => simp [optBytes]
      | some s => exact (hs s rfl).2
    have hio : (optBytes info).length ≤ 1024 := by
      cases info with
      | none => simp [optBytes]
      | some s => exact (hi s rfl).2
    have hcopy : ∀ a : KdfAlgo, a.kind = .hkdf → kdfMetaCopy ⟨a, salt, info⟩ = some ⟨a, salt, info⟩ := by
      intro a ha
      unfold kdfMetaCopy
      rw [dupOpt_of (b := salt) hs, dupOpt_of (b := info) (fun x hx => ⟨(hi x hx).1, by have := (hi x hx).2; omega⟩)]
      simp only [Option.bind_some, kdfMetaCreate, ha]
      rw [if_neg]
      cases salt <;> cases info <;> simp_all
    cases d with
    | sha256 =>
      obtain ⟨h, e, hl⟩ := hP.hkdf_len .sha256 pass salt info n.toNat hn hn2
      refine ⟨h, ?_, hl⟩
      show performKdfMeta P ⟨{ hkdfSha256 with outputSize := n }, salt, info⟩ pass = _
      unfold performKdfMeta
      rw [hcopy _ rfl]
      show (hkdfChecks pass salt info n.toNat (P.hkdf .sha256 pass salt info n.toNat)).bind _ = _
      rw [hkdfChecks_pass hp hso hio hn hn2, e]; rfl
    | sha384 =>
      obtain ⟨h, e, hl⟩ := hP.hkdf_len .sha384 pass salt info n.toNat hn hn2
      refine ⟨h, ?_, hl⟩
      show performKdfMeta P ⟨{ hkdfSha384 with outputSize := n }, salt, info⟩ pass = _
      unfold performKdfMeta
      rw [hcopy _ rfl]
      show (hkdfChecks pass salt info n.toNat (P.hkdf .sha384 pass salt info n.toNat)).bind _ = _
      rw [hkdfChecks_pass hp hso hio hn hn2, e]; rfl
    | sha512 =>
      obtain ⟨h, e, hl⟩ := hP.hkdf_len .sha512 pass salt info n.toNat hn hn2
      refine ⟨h, ?_, hl⟩
      show performKdfMeta P ⟨{ hkdfSha512 with outputSize := n }, salt, info⟩ pass = _
      unfold performKdfMeta
      rw [hcopy _ rfl]
      show (hkdfChecks pass salt info n.toNat (P.hkdf .sha512 pass salt info n.toNat)).bind _ = _
      rw [hkdfChecks_pass hp hso hio hn hn2, e]; rfl
  hkdf_expand_len n info pass hn hp0 hp hi0 hi := by
    have hmb := maxBuffer_val
    have hn2 : n.toNat ≤ 255 := by have := n.toNat_lt; omega
    obtain ⟨h, e, hl⟩ := hP.hkdf_expand_len .sha512 pass (some info) n.toNat hn hn2
    refine ⟨h, ?_, hl⟩
    show performKdfMeta P ⟨{ hkdfSha512Expand with outputSize := n }, none, some info⟩ pass = _
    unfold performKdfMeta kdfMetaCopy
    rw [dupOpt_of (b := none) (by simp), dupOpt_of (b := some info) (by
      intro x hx; cases hx; exact ⟨hi0, by omega⟩)]
    show (hkdfChecks pass none (some info) n.toNat
      (P.hkdfExpand .sha512 pass (some info) n.toNat)).bind _ = _
    rw [hkdfChecks_pass (salt := none) (info := some info) hp (by simp [optBytes]) hi hn hn2, e]; rfl
  scrypt_len a salt pass ha hs hp0 hp := by
    have hmb := maxBuffer_val
    have hk : a.kind = .scrypt ∧ a.outputSize.toNat = 32 ∧ a.saltSize.toNat = 16 := by
      simp only [List.mem_cons, List.not_mem_nil, or_false] at ha
      rcases ha with rfl | rfl | rfl | rfl <;> decide
    obtain ⟨hk, ho, hz⟩ := hk
    obtain ⟨h, e, hl⟩ := hP.scrypt_len pass salt (2 ^ (a.cost.toNat / 65536)) (a.cost.toNat / 256 % 256)
      (a.cost.toNat % 256) a.outputSize.toNat (by omega)
    refine ⟨h, ?_, hl⟩
    show performKdfMeta P ⟨a, some salt, none⟩ pass = _
    unfold performKdfMeta kdfMetaCopy
    rw [dupOpt_of (b := some salt) (by intro x hx; cases hx; exact ⟨by omega, by omega⟩),
      dupOpt_of (b := none) (by simp)]
    simp only [hk, scryptHash, kdfMetaCreate, Option.bind_some]
    have c1 : ¬ a.outputSize.toNat = 0 := by omega
    have c2 : ¬ salt.length ≠ a.saltSize.toNat := by omega
    rw [if_neg c1, if_neg c2, e]; rfl
  kdf_salt m pass h hh hk := by
    have h' : performKdfMeta P m pass = some h := hh
    unfold performKdfMeta at h'
    obtain ⟨x, _, hy⟩ := Option.bind_eq_some_iff.1 h'
    obtain ⟨y, hc, _⟩ := Option.map_eq_some_iff.1 hy
    unfold kdfMetaCopy at hc
    obtain ⟨s, hs, hc⟩ := Option.bind_eq_some_iff.1 hc
    obtain ⟨i, hi, hc⟩ := Option.bind_eq_some_iff.1 hc
    obtain ⟨rfl, _⟩ := dupOpt_eq_some.1 hs
    unfold kdfMetaCreate at hc
    split at hc
    · next hx => exact absurd hx hk
    · split at hc
      · simp at hc
      · next s' hs' =>
        split at hc
        · simp at hc
        · exact ⟨s', hs', by omega⟩

theorem toyPrim_lawful : toyPrim.Lawful where
  gcm_open key iv aad pt := by
    have h : ∀ (a : UInt8) (l : Bytes), (l.map (· ^^^ a)).map (· ^^^ a) = l := by
      intro a l; simp [List.map_map, Function.comp_def, UInt8.xor_assoc]
    simp only [toyPrim, h]
    rw [if_pos trivial]
  gcm_len key iv aad pt := by simp [toyPrim]
  ctr_inv key iv d := by simp [toyPrim, List.map_map, Function.comp_def, UInt8.xor_assoc]
  ctr_len key iv d := by simp [toyPrim]
  sha_len d b := by simp [toyPrim]
  hmac_len d k b := by simp [toyPrim]
  hkdf_len d ikm salt info n _ _ := ⟨_, rfl, by simp⟩
  hkdf_expand_len d prk info n _ _ := ⟨_, rfl, by simp⟩
  scrypt_len _ _ _ _ _ _ _ := ⟨_, rfl, by simp⟩
  o2i_i2o p := rfl
  i2o_len (p : UInt8) := by show 0 < [p].length ∧ [p].length ≤ 133; simp
  d2i_i2d s := rfl
  i2d_len (s : UInt8) := by show 0 < [48, s].length ∧ [48, s].length ≤ 1024; simp
  sign_verify (s : UInt8) d data nonce :=
    ⟨[s, d.id, toySum data], rfl, by simp, by simp, by
      show ([s, d.id, toySum data] == [s, d.id, toySum data]) = true; simp⟩
  ecdh_comm (a b : UInt8) := by
    refine ⟨[a + b], rfl, ?_, by simp, by simp⟩
    show some [b + a] = _
    rw [UInt8.add_comm]

theorem toyEngine_lawful : toyEngine.Lawful := defaultEngine_lawful _ toyPrim_lawful

theorem toyKey_pair (s : UInt8) (h : s ≠ 0) : toyEngine.KeyPair (toyKey s) where
  pri := by
    refine ⟨[48, s], rfl, ?_, by simp, by simp⟩
    show ecKeyImport toyPrim [48, s] true = _
    unfold ecKeyImport
    simp [pubToBuffer_ok _ toyPrim_lawful, priToBuffer_ok _ toyPrim_lawful]
    simp [toyPrim, h, toyKey, Curve.id]
  pub := by
    show ecKeyImport toyPrim [0, s] false = _
    unfold ecKeyImport evpPublic
    simp [pubToBuffer_ok _ toyPrim_lawful, Curve.find]
    simp [toyPrim, h, toyKey, Curve.id]
  pubLen := by simp [toyKey, Curve.maxPub]

/-- Every randomly generated key pair of the default engine is a `KeyPair`. -/
theorem ecRandKey_pair (P : Prim) (hP : P.Lawful) (s : P.Pri) (hi : P.isInf (P.pubOf s) = false)
    (hc : P.isP521 s = true) : ∃ k, ecRandKey P s = some k ∧ (defaultEngine P).KeyPair k := by
  refine ⟨⟨.p521, Curve.p521.id :: P.i2o (P.pubOf s), some (P.i2d s)⟩, ?_, ?_, ?_, ?_⟩
  · simp [ecRandKey, pubToBuffer_ok P hP, priToBuffer_ok P hP]
  · refine ⟨_, rfl, ?_, hP.i2d_len s⟩
    show ecKeyImport P _ true = _
    simp [ecKeyImport, hP.d2i_i2d, hi, hc, pubToBuffer_ok P hP, priToBuffer_ok P hP]
  · show ecKeyImport P _ false = _
    simp [ecKeyImport, evpPublic_i2o P hP, hi, pubToBuffer_ok P hP]
  · have := hP.i2o_len (P.pubOf s)
    simp [Curve.maxPub]; omega

end Wickr
