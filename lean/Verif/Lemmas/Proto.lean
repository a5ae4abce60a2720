import Verif.Model.Proto
import Verif.Lemmas.Codec
set_option linter.unusedSimpArgs false
namespace Wickr

theorem varintDec_encAux : ∀ (k j n : Nat) (rest : Bytes), 0 < k → n < 128 ^ j → n < 128 ^ k → 0 < j →
    varintDec j (varintEncAux k n ++ rest) = some (n, rest)
  | 0, _, _, _, hk, _, _, _ => by omega
  | k + 1, 0, _, _, _, _, _, hj => by omega
  | k + 1, j + 1, n, rest, _, hj, hk, _ => by
    unfold varintEncAux
    by_cases h : n < 128
    · rw [if_pos h]
      have e : (UInt8.ofNat n).toNat = n := by rw [UInt8.toNat_ofNat']; omega
      simp [varintDec, e, h]
    · rw [if_neg h]
      have e : (UInt8.ofNat (n % 128 + 128)).toNat = n % 128 + 128 := by
        rw [UInt8.toNat_ofNat']; omega
      have hj' : n / 128 < 128 ^ j := by rw [Nat.div_lt_iff_lt_mul (by omega)]; rwa [Nat.pow_succ] at hj
      have hk' : n / 128 < 128 ^ k := by rw [Nat.div_lt_iff_lt_mul (by omega)]; rwa [Nat.pow_succ] at hk
      have k0 : 0 < k := by
        rcases Nat.eq_zero_or_pos k with rfl | h0
        · simp at hk'; omega
        · exact h0
      have j0 : 0 < j := by
        rcases Nat.eq_zero_or_pos j with rfl | h0
        · simp at hj'; omega
        · exact h0
      have ih := varintDec_encAux k j (n / 128) rest k0 hj' hk' j0
      simp only [List.cons_append, varintDec, e, ih, Option.map_some]
      rw [if_neg (by omega)]
      congr 2; omega

theorem varintDec_enc {j n : Nat} (rest : Bytes) (hj : n < 128 ^ j) (hn : n < 2 ^ 64) (j0 : 0 < j) :
    varintDec j (varintEnc n ++ rest) = some (n, rest) :=
  varintDec_encAux 10 j n rest (by omega) hj (by omega) j0

theorem varintEnc_ne_nil (n : Nat) : varintEnc n ≠ [] := by
  unfold varintEnc varintEncAux; split <;> simp

theorem varintDec_lt : ∀ (k : Nat) (bs : Bytes) (p : Nat × Bytes), varintDec k bs = some p →
    p.2.length < bs.length
  | 0, _, _, h => by simp [varintDec] at h
  | _ + 1, [], _, h => by simp [varintDec] at h
  | k + 1, b :: bs, p, h => by
    unfold varintDec at h
    split at h
    · simp only [Option.some.injEq] at h; subst h; simp
    · cases h' : varintDec k bs with
      | none => simp [h'] at h
      | some q =>
        simp only [h', Option.map_some, Option.some.injEq] at h
        have := varintDec_lt k bs q h'
        subst h; simp only [List.length_cons]; omega

theorem valDec_le {wt : Nat} {bs : Bytes} {p : WireVal × Bytes} (h : valDec wt bs = some p) :
    p.2.length ≤ bs.length := by
  unfold valDec at h
  split at h
  · cases h' : varintDec 10 bs with
    | none => simp [h'] at h
    | some q =>
      simp only [h', Option.map_some, Option.some.injEq] at h
      have := varintDec_lt 10 bs q h'
      subst h; simp only; omega
  · split at h
    · simp at h
    · simp only [Option.some.injEq] at h; subst h; simp
  · cases h' : varintDec 5 bs with
    | none => simp [h'] at h
    | some q =>
      simp only [h', Option.bind_some] at h
      have := varintDec_lt 5 bs q h'
      split at h
      · simp at h
      · simp only [Option.some.injEq] at h; subst h; simp; omega
  · split at h
    · simp at h
    · simp only [Option.some.injEq] at h; subst h; simp
  · simp at h

/-- A field protobuf-c can pack: field number in range, fixed-size values of the right size, and a
length that fits. -/
def Field.Ok (f : Field) : Prop :=
  f.num < 2 ^ 29 ∧ match f.val with
    | .varint _ => True
    | .fixed64 b => b.length = 8
    | .len b => b.length < 2 ^ 32
    | .fixed32 b => b.length = 4

theorem valDec_payload (v : WireVal) (rest : Bytes) (h : Field.Ok ⟨0, v⟩) :
    valDec v.wireType (v.payload ++ rest) = some (v, rest) := by
  have h := h.2
  cases v with
  | varint n =>
    simp only [WireVal.wireType, WireVal.payload, valDec]
    have hn := n.toNat_lt
    rw [varintDec_enc rest (by omega) (by omega) (by omega)]
    simp
  | fixed64 b =>
    simp only at h
    have hl : ¬ (b ++ rest).length < 8 := by simp only [List.length_append]; omega
    show (if (b ++ rest).length < 8 then none
      else some (WireVal.fixed64 ((b ++ rest).take 8), (b ++ rest).drop 8)) = _
    rw [if_neg hl, ← h]
    simp
  | len b =>
    simp only at h
    simp only [WireVal.wireType, WireVal.payload, valDec, List.append_assoc]
    rw [varintDec_enc _ (by omega) (by omega) (by omega)]
    simp
  | fixed32 b =>
    simp only at h
    have hl : ¬ (b ++ rest).length < 4 := by simp only [List.length_append]; omega
    show (if (b ++ rest).length < 4 then none
      else some (WireVal.fixed32 ((b ++ rest).take 4), (b ++ rest).drop 4)) = _
    rw [if_neg hl, ← h]
    simp

theorem wireType_lt (v : WireVal) : v.wireType < 8 := by cases v <;> simp [WireVal.wireType]

theorem fieldsDecAux_enc : ∀ (fs : List Field) (k : Nat), (∀ f ∈ fs, f.Ok) →
    (fieldsEnc fs).length ≤ k → fieldsDecAux k (fieldsEnc fs) = some fs
  | [], k, _, _ => by cases k <;> rfl
  | f :: fs, k, h, hk => by
    have hf := h f (by simp)
    have e : fieldsEnc (f :: fs) = varintEnc (f.num * 8 + f.val.wireType) ++ (f.val.payload ++ fieldsEnc fs) := by
      simp [fieldsEnc, Field.enc]
    have hw := wireType_lt f.val
    have h1 := hf.1
    have ht := varintDec_enc (j := 5) (n := f.num * 8 + f.val.wireType)
      (f.val.payload ++ fieldsEnc fs) (by omega) (by omega) (by omega)
    have hv := valDec_payload f.val (fieldsEnc fs) ⟨by show 0 < 2 ^ 29; omega, hf.2⟩
    have hl := varintDec_lt _ _ _ ht
    simp only [List.length_append] at hl
    rw [e] at hk ⊢
    cases hb : varintEnc (f.num * 8 + f.val.wireType) ++ (f.val.payload ++ fieldsEnc fs) with
    | nil => simp [varintEnc_ne_nil] at hb
    | cons b bs =>
      rw [hb] at ht
      cases k with
      | zero => simp [varintEnc_ne_nil] at hk
      | succ k =>
        simp only [List.length_append] at hk
        have ih := fieldsDecAux_enc fs k (fun f hf => h f (by simp [hf])) (by omega)
        have e1 : (f.num * 8 + f.val.wireType) % 8 = f.val.wireType := by omega
        have e2 : (f.num * 8 + f.val.wireType) / 8 = f.num := by omega
        simp only [fieldsDecAux, ht, Option.bind_some, e1, hv, ih, Option.map_some, e2]

theorem fieldsDec_enc (fs : List Field) (h : ∀ f ∈ fs, f.Ok) : fieldsDec (fieldsEnc fs) = some fs :=
  fieldsDecAux_enc fs _ h (Nat.le_refl _)

/-- A length-delimited field is shorter than the message that contains it. -/
theorem len_le_of_mem {fs : List Field} {n : Nat} {b : Bytes} (h : ⟨n, .len b⟩ ∈ fs) :
    b.length ≤ (fieldsEnc fs).length := by
  induction fs with
  | nil => simp at h
  | cons f fs ih =>
    rw [show fieldsEnc (f :: fs) = f.enc ++ fieldsEnc fs by simp [fieldsEnc], List.length_append]
    rcases List.mem_cons.1 h with rfl | h
    · simp only [Field.enc, WireVal.payload, List.length_append]; omega
    · have := ih h; omega

/-- Fields are packable as soon as the packed message fits a buffer. -/
theorem ok_of_size {fs : List Field} (hn : ∀ f ∈ fs, f.num < 2 ^ 29)
    (hk : ∀ f ∈ fs, (∃ n, f.val = .varint n) ∨ ∃ b, f.val = .len b)
    (h : (fieldsEnc fs).length ≤ maxBuffer) : ∀ f ∈ fs, f.Ok := by
  intro f hf
  refine ⟨hn f hf, ?_⟩
  rcases hk f hf with ⟨n, e⟩ | ⟨b, e⟩ <;> rw [e]
  · trivial
  · have : (⟨f.num, .len b⟩ : Field) ∈ fs := by rw [← e]; exact hf
    have := len_le_of_mem this
    rw [maxBuffer_val] at h
    show b.length < 2 ^ 32
    omega

/-! Getters against putters. -/

theorem occ_append (n : Nat) (a b : List Field) : occ n (a ++ b) = occ n a ++ occ n b := by
  simp [occ]

section
variable {α : Type} (n k : Nat)

theorem occ_putBytes (v : Option Bytes) :
    occ n (putBytes k v) = if k = n then (v.map WireVal.len).toList else [] := by
  cases v <;> by_cases h : k = n <;> simp [occ, putBytes, h]
theorem occ_putU64 (v : Option UInt64) :
    occ n (putU64 k v) = if k = n then (v.map WireVal.varint).toList else [] := by
  cases v <;> by_cases h : k = n <;> simp [occ, putU64, h]
theorem occ_putU32 (v : Option UInt32) :
    occ n (putU32 k v) = if k = n then (v.map fun x => WireVal.varint x.toUInt64).toList else [] := by
  cases v <;> by_cases h : k = n <;> simp [occ, putU32, h]
theorem occ_putBool (v : Option Bool) :
    occ n (putBool k v) = if k = n then (v.map fun x => WireVal.varint (if x then 1 else 0)).toList
      else [] := by
  cases v <;> by_cases h : k = n <;> simp [occ, putBool, h]
theorem occ_putMsg (pack : α → List Field) (v : Option α) :
    occ n (putMsg pack k v) = if k = n then (v.map fun m => WireVal.len (fieldsEnc (pack m))).toList
      else [] := by
  cases v <;> by_cases h : k = n <;> simp [occ, putMsg, h]
theorem occ_putRep (pack : α → List Field) (v : List α) :
    occ n (putRep pack k v) = if k = n then v.map fun m => WireVal.len (fieldsEnc (pack m)) else [] := by
  induction v with
  | nil => simp [occ, putRep]
  | cons a v ih =>
    by_cases h : k = n <;> simp [occ, putRep, h] at ih ⊢
    · exact ih
end

theorem getLast_bytes {n : Nat} {fs : List Field} (v : Option Bytes)
    (h : occ n fs = (v.map WireVal.len).toList) : getBytes n fs = some v := by
  cases v <;> simp [getBytes, getLast, h, WireVal.asBytes]
theorem getLast_u64 {n : Nat} {fs : List Field} (v : Option UInt64)
    (h : occ n fs = (v.map WireVal.varint).toList) : getU64 n fs = some v := by
  cases v <;> simp [getU64, getLast, h, WireVal.asU64]
theorem u32_u64 (x : UInt32) : x.toUInt64.toUInt32 = x := by simp
theorem getLast_u32 {n : Nat} {fs : List Field} (v : Option UInt32)
    (h : occ n fs = (v.map fun x => WireVal.varint x.toUInt64).toList) : getU32 n fs = some v := by
  cases v <;> simp [getU32, getLast, h, WireVal.asU32, u32_u64]
theorem getLast_bool {n : Nat} {fs : List Field} (v : Option Bool)
    (h : occ n fs = (v.map fun x => WireVal.varint (if x then 1 else 0)).toList) :
    getBool n fs = some v := by
  cases v with
  | none => simp [getBool, getLast, h, WireVal.asBool]
  | some b => cases b <;> simp [getBool, getLast, h, WireVal.asBool]

/-- The three facts a message type has to provide to be round-tripped. -/
structure LawfulMsg {α : Type} (pack : α → List Field) (unpack : List Field → Option α) : Prop where
  nums : ∀ m, ∀ f ∈ pack m, f.num < 2 ^ 29
  kinds : ∀ m, ∀ f ∈ pack m, (∃ n, f.val = .varint n) ∨ ∃ b, f.val = .len b
  unpack_pack : ∀ m, (fieldsEnc (pack m)).length ≤ maxBuffer → unpack (pack m) = some m

theorem LawfulMsg.dec {α : Type} {pack : α → List Field} {unpack : List Field → Option α}
    (L : LawfulMsg pack unpack) (m : α) (h : (fieldsEnc (pack m)).length ≤ maxBuffer) :
    fieldsDec (fieldsEnc (pack m)) = some (pack m) :=
  fieldsDec_enc _ (ok_of_size (L.nums m) (L.kinds m) h)

theorem LawfulMsg.asMsg {α : Type} {pack : α → List Field} {unpack : List Field → Option α}
    (L : LawfulMsg pack unpack) (m : α) (h : (fieldsEnc (pack m)).length ≤ maxBuffer) :
    (WireVal.len (fieldsEnc (pack m))).asMsg unpack = some (pack m, m) := by
  simp [WireVal.asMsg, WireVal.asBytes, L.dec m h, L.unpack_pack m h]

theorem LawfulMsg.getMsg {α : Type} {pack : α → List Field} {unpack : List Field → Option α}
    (L : LawfulMsg pack unpack) {n : Nat} {fs : List Field} (v : Option α)
    (hv : ∀ m, v = some m → (fieldsEnc (pack m)).length ≤ maxBuffer)
    (h : occ n fs = (v.map fun m => WireVal.len (fieldsEnc (pack m))).toList) :
    getMsg unpack n fs = some v := by
  cases v with
  | none => simp [Wickr.getMsg, h]
  | some m => simp [Wickr.getMsg, h, L.asMsg m (hv m rfl)]

theorem LawfulMsg.getRep {α : Type} {pack : α → List Field} {unpack : List Field → Option α}
    (L : LawfulMsg pack unpack) {n : Nat} {fs : List Field} (v : List α)
    (hv : ∀ m ∈ v, (fieldsEnc (pack m)).length ≤ maxBuffer)
    (h : occ n fs = v.map fun m => WireVal.len (fieldsEnc (pack m))) :
    getRep unpack n fs = some v := by
  unfold Wickr.getRep
  rw [h]
  clear h
  induction v with
  | nil => simp
  | cons a v ih =>
    have ih := ih fun m hm => hv m (by simp [hm])
    simp only [Option.map_eq_some_iff] at ih
    obtain ⟨l, h1, h2⟩ := ih
    simp [L.asMsg a (hv a (by simp)), h1, h2]

/-- Packing to a buffer and unpacking it again. -/
theorem LawfulMsg.round_trip {α : Type} {pack : α → List Field} {unpack : List Field → Option α}
    (L : LawfulMsg pack unpack) (m : α) (b : Bytes) (h : protoPack (pack m) = some b) :
    (fieldsDec b).bind unpack = some m := by
  unfold protoPack at h
  rw [dup_eq_some] at h
  obtain ⟨hv, rfl⟩ := h
  simp [L.dec m hv.2, L.unpack_pack m hv.2]

/-- Bound on a sub-message from the bound on the message. -/
theorem sub_le {α : Type} {fs : List Field} {n : Nat} {pack : α → List Field} {m : α}
    (h : (fieldsEnc fs).length ≤ maxBuffer) (hm : ⟨n, .len (fieldsEnc (pack m))⟩ ∈ fs) :
    (fieldsEnc (pack m)).length ≤ maxBuffer := Nat.le_trans (len_le_of_mem hm) h

theorem mem_putBytes {f : Field} {n : Nat} {v : Option Bytes} (h : f ∈ putBytes n v) :
    f.num = n ∧ ((∃ k, f.val = .varint k) ∨ ∃ b, f.val = .len b) := by
  cases v <;> simp [putBytes] at h; subst h; simp
theorem mem_putU64 {f : Field} {n : Nat} {v : Option UInt64} (h : f ∈ putU64 n v) :
    f.num = n ∧ ((∃ k, f.val = .varint k) ∨ ∃ b, f.val = .len b) := by
  cases v <;> simp [putU64] at h; subst h; simp
theorem mem_putU32 {f : Field} {n : Nat} {v : Option UInt32} (h : f ∈ putU32 n v) :
    f.num = n ∧ ((∃ k, f.val = .varint k) ∨ ∃ b, f.val = .len b) := by
  cases v <;> simp [putU32] at h; subst h; simp
theorem mem_putBool {f : Field} {n : Nat} {v : Option Bool} (h : f ∈ putBool n v) :
    f.num = n ∧ ((∃ k, f.val = .varint k) ∨ ∃ b, f.val = .len b) := by
  cases v <;> simp [putBool] at h; subst h; simp
theorem mem_putMsg {α : Type} {p : α → List Field} {f : Field} {n : Nat} {v : Option α}
    (h : f ∈ putMsg p n v) : f.num = n ∧ ((∃ k, f.val = .varint k) ∨ ∃ b, f.val = .len b) := by
  cases v <;> simp [putMsg] at h; subst h; simp
theorem mem_putRep {α : Type} {p : α → List Field} {f : Field} {n : Nat} {v : List α}
    (h : f ∈ putRep p n v) : f.num = n ∧ ((∃ k, f.val = .varint k) ∨ ∃ b, f.val = .len b) := by
  simp only [putRep, List.mem_map] at h
  obtain ⟨m, _, rfl⟩ := h; simp

/-- Splits membership in a packed message into its members. -/
syntax "pack_members" ident : tactic
macro_rules
  | `(tactic| pack_members $d:ident) => `(tactic|
    (intro m f hf
     simp only [$d:ident, List.mem_append] at hf
     repeat' (first
       | (have hh := mem_putBytes hf; first | exact hh.2 | (have := hh.1; omega))
       | (have hh := mem_putU64 hf; first | exact hh.2 | (have := hh.1; omega))
       | (have hh := mem_putU32 hf; first | exact hh.2 | (have := hh.1; omega))
       | (have hh := mem_putBool hf; first | exact hh.2 | (have := hh.1; omega))
       | (have hh := mem_putMsg hf; first | exact hh.2 | (have := hh.1; omega))
       | (have hh := mem_putRep hf; first | exact hh.2 | (have := hh.1; omega))
       | (rcases hf with hf | hf))))

/-- Computes the occurrences of a field in a packed message. -/
syntax "occs" ident : tactic
macro_rules
  | `(tactic| occs $d:ident) => `(tactic|
    simp [$d:ident, occ_append, occ_putBytes, occ_putU64, occ_putU32, occ_putBool, occ_putMsg,
      occ_putRep])

theorem PEphKey.lawful : LawfulMsg PEphKey.pack PEphKey.unpack where
  nums := by pack_members PEphKey.pack
  kinds := by pack_members PEphKey.pack
  unpack_pack m _ := by
    simp [PEphKey.unpack,
      getLast_u64 (n := 1) (fs := m.pack) m.identifier (by occs PEphKey.pack),
      getLast_bytes (n := 2) (fs := m.pack) m.ecKey (by occs PEphKey.pack),
      getLast_bytes (n := 3) (fs := m.pack) m.keySig (by occs PEphKey.pack)]

theorem PIdentity.lawful : LawfulMsg PIdentity.pack PIdentity.unpack where
  nums := by pack_members PIdentity.pack
  kinds := by pack_members PIdentity.pack
  unpack_pack m _ := by
    simp [PIdentity.unpack,
      getLast_bytes (n := 1) (fs := m.pack) m.identifier (by occs PIdentity.pack),
      getLast_bytes (n := 2) (fs := m.pack) m.sigKey (by occs PIdentity.pack),
      getLast_bytes (n := 3) (fs := m.pack) m.signature (by occs PIdentity.pack),
      getLast_u32 (n := 4) (fs := m.pack) m.type (by occs PIdentity.pack),
      getLast_bool (n := 5) (fs := m.pack) m.isPrivate (by occs PIdentity.pack)]

theorem PChain.lawful : LawfulMsg PChain.pack PChain.unpack where
  nums := by pack_members PChain.pack
  kinds := by pack_members PChain.pack
  unpack_pack m h := by
    have h1 := PIdentity.lawful.getMsg (n := 1) (fs := m.pack) m.root
      (fun x hx => sub_le (n := 1) h (by simp [PChain.pack, hx, putMsg])) (by occs PChain.pack)
    have h2 := PIdentity.lawful.getMsg (n := 2) (fs := m.pack) m.node
      (fun x hx => sub_le (n := 2) h (by simp [PChain.pack, hx, putMsg])) (by occs PChain.pack)
    simp [PChain.unpack, h1, h2]

theorem PNode.lawful : LawfulMsg PNode.pack PNode.unpack where
  nums := by pack_members PNode.pack
  kinds := by pack_members PNode.pack
  unpack_pack m h := by
    have h2 := PChain.lawful.getMsg (n := 2) (fs := m.pack) m.idChain
      (fun x hx => sub_le (n := 2) h (by simp [PNode.pack, hx, putMsg])) (by occs PNode.pack)
    have h3 := PEphKey.lawful.getMsg (n := 3) (fs := m.pack) m.ephKey
      (fun x hx => sub_le (n := 3) h (by simp [PNode.pack, hx, putMsg])) (by occs PNode.pack)
    simp [PNode.unpack, h2, h3,
      getLast_bytes (n := 1) (fs := m.pack) m.devid (by occs PNode.pack)]

theorem PExchange.lawful : LawfulMsg PExchange.pack PExchange.unpack where
  nums := by pack_members PExchange.pack
  kinds := by pack_members PExchange.pack
  unpack_pack m _ := by
    simp [PExchange.unpack, require,
      getLast_bytes (n := 1) (fs := m.pack) (some m.identifier) (by occs PExchange.pack),
      getLast_u64 (n := 2) (fs := m.pack) (some m.keyId) (by occs PExchange.pack),
      getLast_bytes (n := 3) (fs := m.pack) (some m.data) (by occs PExchange.pack)]

theorem PExchangeSet.lawful : LawfulMsg PExchangeSet.pack PExchangeSet.unpack where
  nums := by pack_members PExchangeSet.pack
  kinds := by pack_members PExchangeSet.pack
  unpack_pack m h := by
    have h2 := PExchange.lawful.getRep (n := 2) (fs := m.pack) m.exchanges
      (fun x hx => sub_le (n := 2) h (by
        simp only [PExchangeSet.pack, putRep, List.mem_append, List.mem_map]
        exact Or.inr ⟨x, hx, rfl⟩)) (by occs PExchangeSet.pack)
    simp [PExchangeSet.unpack, require, h2,
      getLast_bytes (n := 1) (fs := m.pack) (some m.senderPub) (by occs PExchangeSet.pack)]

theorem PPacket.lawful : LawfulMsg PPacket.pack PPacket.unpack where
  nums := by pack_members PPacket.pack
  kinds := by pack_members PPacket.pack
  unpack_pack m _ := by
    simp [PPacket.unpack, require,
      getLast_bytes (n := 1) (fs := m.pack) (some m.encHeader) (by occs PPacket.pack),
      getLast_bytes (n := 2) (fs := m.pack) (some m.encPayload) (by occs PPacket.pack)]

theorem PEphemerality.lawful : LawfulMsg PEphemerality.pack PEphemerality.unpack where
  nums := by pack_members PEphemerality.pack
  kinds := by pack_members PEphemerality.pack
  unpack_pack m _ := by
    simp [PEphemerality.unpack, require,
      getLast_u64 (n := 1) (fs := m.pack) (some m.ttl) (by occs PEphemerality.pack),
      getLast_u64 (n := 2) (fs := m.pack) m.bor (by occs PEphemerality.pack)]

theorem PMeta.lawful : LawfulMsg PMeta.pack PMeta.unpack where
  nums := by pack_members PMeta.pack
  kinds := by pack_members PMeta.pack
  unpack_pack m h := by
    have h1 := PEphemerality.lawful.getMsg (n := 1) (fs := m.pack) (some m.eph)
      (fun x hx => sub_le (n := 1) h (by cases hx; simp [PMeta.pack, putMsg])) (by occs PMeta.pack)
    simp [PMeta.unpack, require, h1,
      getLast_bytes (n := 2) (fs := m.pack) m.channelTag (by occs PMeta.pack),
      getLast_u32 (n := 3) (fs := m.pack) m.contentType (by occs PMeta.pack)]

theorem PPayload.lawful : LawfulMsg PPayload.pack PPayload.unpack where
  nums := by pack_members PPayload.pack
  kinds := by pack_members PPayload.pack
  unpack_pack m h := by
    have h1 := PMeta.lawful.getMsg (n := 3) (fs := m.pack) (some m.hdr)
      (fun x hx => sub_le (n := 3) h (by cases hx; simp [PPayload.pack, putMsg])) (by occs PPayload.pack)
    simp [PPayload.unpack, require, h1,
      getLast_bytes (n := 4) (fs := m.pack) (some m.body) (by occs PPayload.pack)]

theorem PRootKeys.lawful : LawfulMsg PRootKeys.pack PRootKeys.unpack where
  nums := by pack_members PRootKeys.pack
  kinds := by pack_members PRootKeys.pack
  unpack_pack m _ := by
    simp [PRootKeys.unpack, require,
      getLast_u32 (n := 1) (fs := m.pack) (some m.version) (by occs PRootKeys.pack),
      getLast_bytes (n := 2) (fs := m.pack) m.nodeStorageRoot (by occs PRootKeys.pack),
      getLast_bytes (n := 3) (fs := m.pack) m.remoteStorageRoot (by occs PRootKeys.pack),
      getLast_bytes (n := 4) (fs := m.pack) m.nodeSignatureRoot (by occs PRootKeys.pack)]

theorem PStorageKeys.lawful : LawfulMsg PStorageKeys.pack PStorageKeys.unpack where
  nums := by pack_members PStorageKeys.pack
  kinds := by pack_members PStorageKeys.pack
  unpack_pack m _ := by
    simp [PStorageKeys.unpack, require,
      getLast_u32 (n := 1) (fs := m.pack) (some m.version) (by occs PStorageKeys.pack),
      getLast_bytes (n := 2) (fs := m.pack) m.localStorage (by occs PStorageKeys.pack),
      getLast_bytes (n := 3) (fs := m.pack) m.remoteStorage (by occs PStorageKeys.pack)]

theorem PCtx.lawful : LawfulMsg PCtx.pack PCtx.unpack where
  nums := by pack_members PCtx.pack
  kinds := by pack_members PCtx.pack
  unpack_pack m h := by
    have h1 := PStorageKeys.lawful.getMsg (n := 1) (fs := m.pack) m.storage
      (fun x hx => sub_le (n := 1) h (by simp [PCtx.pack, hx, putMsg])) (by occs PCtx.pack)
    have h2 := PChain.lawful.getMsg (n := 2) (fs := m.pack) m.idChain
      (fun x hx => sub_le (n := 2) h (by simp [PCtx.pack, hx, putMsg])) (by occs PCtx.pack)
    simp [PCtx.unpack, h1, h2]

theorem PSeed.lawful : LawfulMsg PSeed.pack PSeed.unpack where
  nums := by pack_members PSeed.pack
  kinds := by pack_members PSeed.pack
  unpack_pack m h := by
    have h2 := PChain.lawful.getMsg (n := 2) (fs := m.pack) m.idChain
      (fun x hx => sub_le (n := 2) h (by simp [PSeed.pack, hx, putMsg])) (by occs PSeed.pack)
    simp [PSeed.unpack, h2,
      getLast_bytes (n := 3) (fs := m.pack) m.ephPub (by occs PSeed.pack),
      getLast_bool (n := 4) (fs := m.pack) m.identityRequired (by occs PSeed.pack)]

theorem PResponse.lawful : LawfulMsg PResponse.pack PResponse.unpack where
  nums := by pack_members PResponse.pack
  kinds := by pack_members PResponse.pack
  unpack_pack m h := by
    have h4 := PChain.lawful.getMsg (n := 4) (fs := m.pack) m.idChain
      (fun x hx => sub_le (n := 4) h (by simp [PResponse.pack, hx, putMsg])) (by occs PResponse.pack)
    simp [PResponse.unpack, h4,
      getLast_bytes (n := 2) (fs := m.pack) m.ephPub (by occs PResponse.pack),
      getLast_bytes (n := 3) (fs := m.pack) m.encData (by occs PResponse.pack)]

theorem PHandshake.lawful : LawfulMsg PHandshake.pack PHandshake.unpack where
  nums := by
    intro m f hf
    cases m with
    | unset => simp [PHandshake.pack] at hf
    | seed s => simp only [PHandshake.pack] at hf; have := (mem_putMsg hf).1; omega
    | response r => simp only [PHandshake.pack] at hf; have := (mem_putMsg hf).1; omega
  kinds := by
    intro m f hf
    cases m with
    | unset => simp [PHandshake.pack] at hf
    | seed s => simp only [PHandshake.pack] at hf; exact (mem_putMsg hf).2
    | response r => simp only [PHandshake.pack] at hf; exact (mem_putMsg hf).2
  unpack_pack m h := by
    cases m with
    | unset => simp [PHandshake.pack, PHandshake.unpack]
    | seed s =>
      have hs : (fieldsEnc s.pack).length ≤ maxBuffer :=
        sub_le (n := 2) h (by simp [PHandshake.pack, putMsg])
      simp [PHandshake.pack, PHandshake.unpack, PHandshake.unpack1, putMsg, PSeed.lawful.asMsg s hs]
    | response r =>
      have hs : (fieldsEnc r.pack).length ≤ maxBuffer :=
        sub_le (n := 3) h (by simp [PHandshake.pack, putMsg])
      simp [PHandshake.pack, PHandshake.unpack, PHandshake.unpack1, putMsg, PResponse.lawful.asMsg r hs]

theorem PTransportRootKey.lawful : LawfulMsg PTransportRootKey.pack PTransportRootKey.unpack where
  nums := by pack_members PTransportRootKey.pack
  kinds := by pack_members PTransportRootKey.pack
  unpack_pack m _ := by
    simp [PTransportRootKey.unpack, require,
      getLast_bytes (n := 1) (fs := m.pack) m.secret (by occs PTransportRootKey.pack),
      getLast_u32 (n := 2) (fs := m.pack) m.cipherId (by occs PTransportRootKey.pack),
      getLast_u32 (n := 3) (fs := m.pack) m.ppeSend (by occs PTransportRootKey.pack),
      getLast_u32 (n := 4) (fs := m.pack) m.ppeRecv (by occs PTransportRootKey.pack)]

theorem PResponseData.lawful : LawfulMsg PResponseData.pack PResponseData.unpack where
  nums := by pack_members PResponseData.pack
  kinds := by pack_members PResponseData.pack
  unpack_pack m h := by
    have h1 := PTransportRootKey.lawful.getMsg (n := 1) (fs := m.pack) m.rootKey
      (fun x hx => sub_le (n := 1) h (by simp [PResponseData.pack, hx, putMsg]))
      (by occs PResponseData.pack)
    simp [PResponseData.unpack, h1]

theorem PStreamKey.lawful : LawfulMsg PStreamKey.pack PStreamKey.unpack where
  nums := by pack_members PStreamKey.pack
  kinds := by pack_members PStreamKey.pack
  unpack_pack m _ := by
    simp [PStreamKey.unpack, require,
      getLast_bytes (n := 1) (fs := m.pack) m.cipherKey (by occs PStreamKey.pack),
      getLast_bytes (n := 2) (fs := m.pack) m.evoKey (by occs PStreamKey.pack),
      getLast_u32 (n := 3) (fs := m.pack) m.ppe (by occs PStreamKey.pack),
      getLast_bytes (n := 4) (fs := m.pack) m.userData (by occs PStreamKey.pack)]

end Wickr
