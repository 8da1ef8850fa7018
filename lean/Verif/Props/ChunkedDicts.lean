import Verif.Proofs.ChunkedDicts
import Verif.Props.Chunked

/-!
# C126: chunks and buffers make no difference for dictionaries
-/

namespace Clever.Props

open Clever Spec

/-- **C126**, `stream_dicts`: if it gives all dictionaries without an exception, whatever was going on, then these are the
dictionaries it gives if files are read at once.  If it raises an exception while giving the dictionaries of a file that can be
decoded, it has given these dictionaries up to some point. -/
theorem C126_stream {sys : Sys} {io : Io} (hio : IoOk sys io) (p : Path) (dialect : Option DialectArg) (enc : Option Str)
    (n : Option Int) (w w' : World) (g : Gen (List (Key × DVal)))
    (h : streamDictsC sys io p dialect enc n w = (.ok g, w')) :
    Same w w' ∧
    (g.2 = none → ∃ w2, streamDicts (quiet sys) p dialect enc n w = (.ok g, w2)) ∧
    (∀ text, w.text sys p (w.encodingFor sys p enc) = some text →
      ∃ g0 w2, streamDicts (quiet sys) p dialect enc n w = (.ok g0, w2) ∧ (g = g0 ∨ g.2 ≠ none ∧ g.1 <+: g0.1)) := by
  rw [streamDictsC_eq] at h
  cases ht : streamTableC sys io p dialect enc n w with
  | mk r w1 =>
  rw [ht] at h
  cases r with
  | error e => simp [Except.map] at h
  | ok g1 =>
  simp only [Except.map, Prod.mk.injEq, Except.ok.injEq] at h
  obtain ⟨rfl, rfl⟩ := h
  obtain ⟨h1, h2, h3⟩ := C124_read hio p dialect enc n w w1 g1 ht
  refine ⟨h1, fun hn => ?_, fun text hx => ?_⟩
  · rw [toDicts_err] at hn
    obtain ⟨w2, k⟩ := h2 hn
    exact ⟨w2, by rw [streamDicts_eq, k]; rfl⟩
  · obtain ⟨g0, w2, k1, k2⟩ := h3 text hx
    refine ⟨toDicts g0, w2, by rw [streamDicts_eq, k1]; rfl, ?_⟩
    rcases k2 with rfl | ⟨k2, k3⟩
    · exact .inl rfl
    · exact .inr ⟨by rw [toDicts_err]; exact k2, toDicts_prefix k3⟩

/-- **C126**, `stream_dicts`: if nothing fails and the file can be decoded, it does what it does if files are read at once. -/
theorem C126_stream_runs {sys : Sys} {io : Io} (hio : IoOk sys io) (hq : Quiet sys) (hr : IoQuiet io) (p : Path)
    (dialect : Option DialectArg) (enc : Option Str) (n : Option Int) (w : World) (text : Str)
    (ht : w.text sys p (w.encodingFor sys p enc) = some text) :
    (streamDictsC sys io p dialect enc n w).1 = (streamDicts sys p dialect enc n w).1 := by
  rw [streamDictsC_eq, streamDicts_eq, C124_read_runs hio hq hr p dialect enc n w text ht]

/-- **C126**, `read_dicts` and `read_table`: a result is always the result for the whole file; no files change. -/
theorem C126_read {sys : Sys} {io : Io} (hio : IoOk sys io) (p : Path) (dialect : Option DialectArg) (enc : Option Str)
    (n : Option Int) (w : World) :
    (∀ l w', readDictsC sys io p dialect enc n w = (.ok l, w') →
      Same w w' ∧ ∃ w2, readDicts (quiet sys) p dialect enc n w = (.ok l, w2)) ∧
    (∀ l w', readTableC sys io p dialect enc n w = (.ok l, w') →
      Same w w' ∧ ∃ w2, readTable (quiet sys) p dialect enc n w = (.ok l, w2)) := by
  have toList_ok : ∀ {α : Type} {g : Gen α} {l : List α}, g.toList = .ok l → g.2 = none := by
    intro α g l hg
    rcases g with ⟨a, _ | e⟩
    · rfl
    · simp [Gen.toList] at hg
  constructor
  · intro l w' h
    unfold readDictsC listOf at h
    obtain ⟨g, w1, h1, h⟩ := bind_inv h
    obtain ⟨hl, rfl⟩ := liftExcept_inv h
    obtain ⟨k1, k2, -⟩ := C126_stream hio p dialect enc n w _ g h1
    obtain ⟨w2, k3⟩ := k2 (toList_ok hl)
    exact ⟨k1, w2, by unfold readDicts listOf; rw [act_bind_ok k3, liftExcept_apply, hl]⟩
  · intro l w' h
    unfold readTableC listOf at h
    obtain ⟨g, w1, h1, h⟩ := bind_inv h
    obtain ⟨hl, rfl⟩ := liftExcept_inv h
    obtain ⟨k1, k2, -⟩ := C124_read hio p dialect enc n w _ g h1
    obtain ⟨w2, k3⟩ := k2 (toList_ok hl)
    exact ⟨k1, w2, by unfold readTable listOf; rw [act_bind_ok k3, liftExcept_apply, hl]⟩

/-- **C126**, `read_dicts` and `read_table`: if nothing fails and the file can be decoded, they do what they do if files are read
at once. -/
theorem C126_read_runs {sys : Sys} {io : Io} (hio : IoOk sys io) (hq : Quiet sys) (hr : IoQuiet io) (p : Path)
    (dialect : Option DialectArg) (enc : Option Str) (n : Option Int) (w : World) (text : Str)
    (ht : w.text sys p (w.encodingFor sys p enc) = some text) :
    (readDictsC sys io p dialect enc n w).1 = (readDicts sys p dialect enc n w).1 ∧
    (readTableC sys io p dialect enc n w).1 = (readTable sys p dialect enc n w).1 := by
  have key : ∀ {α : Type} (a b : Act (Gen α)), (a w).1 = (b w).1 → (listOf a w).1 = (listOf b w).1 := by
    intro α a b hab
    unfold listOf
    simp only [act_bind]
    cases ha : a w with
    | mk r1 w1 =>
    cases hb : b w with
    | mk r2 w2 =>
    rw [ha, hb] at hab
    simp only at hab
    subst hab
    cases r1 <;> rfl
  exact ⟨key _ _ (C126_stream_runs hio hq hr p dialect enc n w text ht),
    key _ _ (C124_read_runs hio hq hr p dialect enc n w text ht)⟩

/-- **C126**, `write_dicts`: if it succeeds, whatever was going on, it has done what it does if files are written without a buffer
and nothing fails.  If it fails, only its file has changed, and has the beginning of what is written otherwise.  If nothing fails,
it succeeds if it does so without a buffer. -/
theorem C126_write (sys : Sys) (io : Io) (items : Iter (List (Str × Str))) (p : Path) (dialect : DialectArg) (enc : Option Str)
    (w w' : World) (r : Except PyExc Unit) (h : writeDictsC sys io items p dialect enc w = (r, w')) :
    (r = .ok () → ∃ w2, writeDicts (quiet sys) items p dialect enc w = (.ok (), w2) ∧ w2.files = w'.files ∧
      w2.stdout = w'.stdout ∧ w2.limit = w'.limit) ∧
    (∀ q, q ≠ p → w'.files q = w.files q) ∧ w'.stdout = w.stdout ∧ w'.limit = w.limit ∧
    (∀ w2, writeDicts (quiet sys) items p dialect enc w = (.ok (), w2) →
      w'.files p = w.files p ∨ ∃ b cur, w2.files p = some b ∧ w'.files p = some cur ∧ cur <+: b) ∧
    (Quiet sys → ∀ w2, writeDicts sys items p dialect enc w = (.ok (), w2) → r = .ok ()) := by
  unfold writeDictsC at h
  unfold writeDicts
  split at h
  · rename_i hfalsy
    simp only [act_pure, Prod.mk.injEq] at h
    obtain ⟨rfl, rfl⟩ := h
    rw [if_pos hfalsy, if_pos hfalsy]
    exact ⟨fun _ => ⟨w, rfl, rfl, rfl, rfl⟩, fun _ _ => rfl, rfl, rfl, fun _ _ => .inl rfl, fun _ _ _ => rfl⟩
  rename_i hfalsy
  rw [if_neg hfalsy, if_neg hfalsy]
  cases hi : items.items with
  | nil =>
    rw [hi] at h
    simp only [act_pure, Prod.mk.injEq] at h
    obtain ⟨rfl, rfl⟩ := h
    exact ⟨fun _ => ⟨w, rfl, rfl, rfl, rfl⟩, fun _ _ => rfl, rfl, rfl, fun _ _ => .inl rfl, fun _ _ _ => rfl⟩
  | cons first l =>
    rw [hi] at h
    exact write_general sys io p enc _ _ w w' r h

/-- **C126**, the exception of `close()`: if everything is still in the buffer when the file is closed, and closing fails, then
`write_dicts` raises this `OSError`, also if the writer has raised another exception before. -/
theorem C126_close {sys : Sys} {io : Io} (hio : ∀ k, io.flush k = 0) (items : Iter (List (Str × Str))) (p : Path)
    (dialect : DialectArg) (enc : Option Str) (w : World) (hne : items.items ≠ []) (hw : (mkWriter dialect).isOk)
    (hc : sys.codec enc ≠ none) (h0 : sys.fault w.ticks = none) {k : Nat} (h1 : sys.fault (w.ticks + 1) = some k) :
    (writeDictsC sys io items p dialect enc w).1 = .error .osError := by
  unfold writeDictsC
  cases hi : items.items with
  | nil => exact absurd hi hne
  | cons first l =>
    have hf : items.falsy = false := by simp [Iter.falsy, hi]
    cases hcc : sys.codec enc with
    | none => exact absurd hcc hc
    | some c =>
    have ho : openTextWrite sys p enc w = (.ok c, w.next.set p (some [])) := by
      unfold openTextWrite
      have : openWrite sys p w = (.ok (), w.next.set p (some [])) := by rw [openWrite_apply, h0]
      rw [act_bind_ok this, getCodec_apply, hcc]
    cases hm : mkWriter dialect with
    | error e => rw [hm] at hw; cases hw
    | ok wd =>
    have hd : mkDictWriter (first.map Prod.fst) (arg := dialect) =
        .ok ⟨first.map Prod.fst, [], "raise".toList, wd⟩ := by
      unfold mkDictWriter
      rw [if_neg (by decide), hm]
      rfl
    simp only [hf, Bool.false_eq_true, if_false]
    rw [act_bind_ok ho, hd, act_bind_ok (liftExcept_apply _ _)]
    exact writeAndClose_closeFails hio p c _ _ (k := k) (by exact h1)

/-- The second dictionary is wrong (`ValueError`), and closing fails. -/
example :
    let sys : Sys := { demoSys with fault := fun n => if n = 1 then some 2 else none }
    let r := writeDictsC sys { demoIo with flush := fun _ => 0 } ⟨[[("a".toList, "1".toList)], [("b".toList, "2".toList)]], true⟩
      "f".toList (.name "excel") none (demoWorld [])
    (demoWorld []).ticks = 0 ∧ r.1 = .error .osError ∧ r.2.text demoSys "f".toList none = some "a\r".toList := by
  decide +kernel

/-! ## Examples -/

/-- A file in chunks of two bytes. -/
example :
    let w := demoWorld [("f", "a;b\r\n1;2\n")]
    (readDictsC demoSys demoIo "f".toList none none none w).1 =
      .ok [[(some "a".toList, .cell "1".toList), (some "b".toList, .cell "2".toList)]] := by decide +kernel

/-- The file system fails after six bytes: `read_dicts` gives no dictionary. -/
example :
    (readDictsC demoSys brokenIo "f".toList (some (.name "excel")) none none (demoWorld [("f", "a,b\r\n1,2\n")])).1 =
      .error .osError := by decide +kernel

/-- The file system fails after six bytes: `stream_dicts` gives the dictionaries before. -/
example :
    let r := streamDictsC demoSys brokenIo "f".toList (some (.name "excel")) none none (demoWorld [("f", "a\n1\n2\n3\n")])
    (match r.1 with
      | .ok g => decide (g.1 = [[(some "a".toList, .cell "1".toList)], [(some "a".toList, .cell "2".toList)]]) &&
          decide (g.2 = some .osError)
      | .error _ => false) = true := by decide +kernel

/-- `write_dicts` with a buffer. -/
example :
    let r := writeDictsC demoSys demoIo ⟨[[("a".toList, "1".toList), ("b".toList, "x,y".toList)]], true⟩ "f".toList
      (.name "excel") none (demoWorld [])
    r.1 = .ok () ∧ r.2.text demoSys "f".toList none = some "a,b\r\n1,\"x,y\"\r\n".toList := by decide +kernel

/-- The second dictionary has a field that the first does not have: the file has the first. -/
example :
    let r := writeDictsC demoSys demoIo ⟨[[("a".toList, "1".toList)], [("b".toList, "2".toList)]], true⟩ "f".toList
      (.name "excel") none (demoWorld [])
    r.1 ≠ .ok () ∧ r.2.text demoSys "f".toList none = some "a\r\n1\r\n".toList := by decide +kernel

end Clever.Props
