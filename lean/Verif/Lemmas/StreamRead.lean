import Verif.Lemmas.ViewSpecsStream
/-
Memory determines the values of the objects in it: what programs read is the value.
-/
namespace Wickr
open Asrt Spec

theorem Reads.unique {α : Type} {h : Heap} {m : H α} {v w : α} (hv : Reads (keep h) m v) (hw : Reads (keep h) m w) : v = w := by
  let s : St := ⟨h, 0, false, []⟩
  let A : Alloc := ⟨fun _ _ => none, fun _ _ _ h => nomatch h⟩
  have h1 := hv Rules.strict false A s emp rfl (by rw [Asrt.star_emp]; rfl)
  have h2 := hw Rules.strict false A s emp rfl (by rw [Asrt.star_emp]; rfl)
  revert h1 h2
  cases m A s with
  | ub => exact fun h => h.elim
  | crash s' => exact fun h => h.1.elim
  | ret r s' =>
    rintro ⟨h, -, -⟩
    rintro ⟨h', -, -⟩
    rw [Asrt.star_emp] at h h'
    exact (Asrt.pure_star.1 h).1.1.symm.trans (Asrt.pure_star.1 h').1.1

def readSKey (p : Ptr) : H StreamKey := do
  let ck ← field p 0
  let k ← readCKey ck
  let e ← field p 1
  let eb ← readBuf e
  let n ← hSKeyPpe p
  let u ← field p 2
  let ub ← readOpt u
  pure ⟨k, eb, n, ub⟩

theorem readSKey_view {h : Heap} {a : Addr} {v : StreamKey} (ha : Has isSKey h a v) : Reads (keep h) (readSKey (some a)) v := by
  intro c f
  unfold readSKey
  have ha' := ha
  sview ha' isSKey
  vgo

def readSIv (p : Ptr) : H (Option StreamIv) :=
  match p with
  | none => pure none
  | some _ => do
    let .iv ci n ← scal p | undefined
    let s ← field p 0
    let seed ← readBuf s
    pure (some ⟨ci, seed, n⟩)

theorem readSIv_view {h : Heap} {p : Ptr} {v : Option StreamIv} (ha : HasOpt isSIv h p v) : Reads (keep h) (readSIv p) v := by
  intro c f
  unfold readSIv
  svopt
  · vgo
  · sviews isSIv
    vgo

def readSCtx (p : Ptr) : H StreamCtx := do
  let .stream last d ref ← scal p | undefined
  let k ← field p 0
  let key ← readSKey k
  let i ← field p 1
  let iv ← readSIv i
  pure ⟨key, iv, last, d, ref⟩

theorem readSCtx_view {h : Heap} {a : Addr} {v : StreamCtx} (ha : Has isSCtx h a v) : Reads (keep h) (readSCtx (some a)) v := by
  intro c f
  unfold readSCtx
  sview ha isSCtx
  vgo

theorem sctx_unique {h : Heap} {a : Addr} {v w : StreamCtx} (hv : Has isSCtx h a v) (hw : Has isSCtx h a w) : v = w :=
  (readSCtx_view hv).unique (readSCtx_view hw)

theorem cres_unique {h : Heap} {a : Addr} {v w : CipherResult} (hv : Has isCRes h a v) (hw : Has isCRes h a w) : v = w :=
  (readCRes_view hv).unique (readCRes_view hw)

theorem buf_unique {h : Heap} {a : Addr} {v w : Bytes} (hv : Has isBuf h a v) (hw : Has isBuf h a w) : v = w :=
  (readBuf_view hv).unique (readBuf_view hw)

end Wickr
