import Verif.Model.Algo
/-
Model of cipher.c (result and key objects and their serialization).
-/
namespace Wickr

/-- cipher.h `wickr_cipher_result_t`: `auth_tag` and `cipher_text` may be NULL. -/
structure CipherResult where
  cipher : Cipher
  iv : Bytes
  ct : Option Bytes
  tag : Option Bytes
deriving Repr, DecidableEq

/-- cipher.c:16-42 `wickr_cipher_result_create` (non-NULL iv). -/
def cipherResultCreate (c : Cipher) (iv : Bytes) (ct tag : Option Bytes) : Option CipherResult :=
  if iv.length ≠ c.ivLen then none
  else if c.isAuth && tag.isNone then none
  else match tag with
    | some t => if t.length ≠ c.tagLen then none else some ⟨c, iv, ct, tag⟩
    | none => some ⟨c, iv, ct, tag⟩

/-- cipher.c:44-59 `wickr_cipher_result_copy`.  A failing copy of the cipher text or of the tag
is passed on as NULL, as in C. -/
def cipherResultCopy (r : CipherResult) : Option CipherResult :=
  (dup r.iv).bind fun iv => cipherResultCreate r.cipher iv (r.ct.bind dup) (r.tag.bind dup)

/-- cipher.c:76-91 `wickr_cipher_result_is_valid` (the iv is never NULL in the model). -/
def cipherResultIsValid (r : CipherResult) : Bool := !(r.cipher.isAuth && r.tag.isNone)

/-- cipher.c:93-109 `wickr_cipher_result_serialize`. -/
def cipherResultSerialize (r : CipherResult) : Option Bytes :=
  if !cipherResultIsValid r then none
  else if !r.cipher.isAuth then concatMulti [some [r.cipher.id], some r.iv, r.ct]
  else concatMulti [some [r.cipher.id], some r.iv, r.tag, r.ct]

/-- cipher.c:111-164 `wickr_cipher_result_from_buffer`. -/
def cipherResultFromBuffer (buffer : Bytes) : Option CipherResult :=
  match buffer with
  | [] => none
  | b0 :: _ =>
    match Cipher.find b0 with
    | none => none
    | some mode =>
      let required := 1 + mode.ivLen + mode.tagLen
      if buffer.length < required then none
      else
        (copySection buffer 1 mode.ivLen).bind fun iv =>
          if mode.isAuth then
            (copySection buffer (1 + mode.ivLen) mode.tagLen).bind fun tag =>
              let pos := 1 + mode.ivLen + mode.tagLen
              if buffer.length > required then
                (copySection buffer pos (buffer.length - pos)).bind fun ct =>
                  cipherResultCreate mode iv (some ct) (some tag)
              else cipherResultCreate mode iv none (some tag)
          else
            let pos := 1 + mode.ivLen
            if buffer.length > required then
              (copySection buffer pos (buffer.length - pos)).bind fun ct =>
                cipherResultCreate mode iv (some ct) none
            else cipherResultCreate mode iv none none

/-- cipher.h `wickr_cipher_key_t`. -/
structure CipherKey where
  cipher : Cipher
  key : Bytes
deriving Repr, DecidableEq

/-- cipher.c:166-177 `wickr_cipher_key_create` (non-NULL key data). -/
def cipherKeyCreate (c : Cipher) (k : Bytes) : Option CipherKey :=
  if k.length ≠ c.keyLen then none else some ⟨c, k⟩

/-- cipher.c:179-198 `wickr_cipher_key_copy`. -/
def cipherKeyCopy (k : CipherKey) : Option CipherKey :=
  (dup k.key).bind fun d => cipherKeyCreate k.cipher d

/-- cipher.c:211-224 `wickr_cipher_key_serialize`. -/
def cipherKeySerialize (k : CipherKey) : Option Bytes := concat2 (some [k.cipher.id]) (some k.key)

/-- cipher.c:226-245 `wickr_cipher_key_from_buffer`. -/
def cipherKeyFromBuffer (buffer : Bytes) : Option CipherKey :=
  if buffer.length ≤ 1 then none
  else match buffer with
    | [] => none
    | b0 :: _ =>
      match Cipher.find b0 with
      | none => none
      | some c =>
        if buffer.length - 1 < c.keyLen then none
        else (copySection buffer 1 c.keyLen).bind fun k => cipherKeyCreate c k

end Wickr
