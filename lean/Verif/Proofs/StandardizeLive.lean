import Verif.Proofs.StandardizeCmd

/-!
# The standardize command finishes when nothing fails
-/

namespace Clever

open Props

theorem encoded_some {sys : Sys} {enc : Option Str} {text : Str} {b : Bytes} (h : encoded sys enc text = some b) :
    ∃ c s, sys.codec enc = some c ∧ c.encodeFrom 0 text = some (s, b) := by
  unfold encoded at h
  cases hc : sys.codec enc with
  | none => rw [hc] at h; simp at h
  | some c =>
    rw [hc, Option.bind_some] at h
    cases he : c.encodeFrom 0 text with
    | none => rw [he] at h; simp at h
    | some x =>
      rw [he] at h
      simp only [Option.map_some, Option.some.injEq] at h
      exact ⟨c, x.1, rfl, by rw [← h, he]⟩

theorem writeGen_ok {sys : Sys} (hq : Quiet sys) {p : Path} {c : Codec} {pieces : List Str} {w : World}
    (ho : w.files p = some []) {s : Nat} {b : Bytes} (he : c.encodeFrom 0 pieces.flatten = some (s, b)) :
    ∃ w', writeGen sys p c (pieces, none) w = (.ok (), w') ∧ w'.files p = some b ∧
      ∀ q, q ≠ p → w'.files q = w.files q := by
  obtain ⟨w', h2, h3, h4, -, -⟩ := writePieces_ok hq p c pieces 0 w [] s b ho he
  refine ⟨w', ?_, by simpa using h3, h4⟩
  unfold writeGen
  rw [act_bind_ok h2]
  rfl

theorem toStdout_ok {sys : Sys} (hq : Quiet sys) {t : Bool} {p : Path} {d : SimpleDialect} {enc : Option Str}
    {w : World} {text : Str} {rows : List (List Str)} (hv : d.validate = .ok ())
    (ht : w.text sys p enc = some text) (hp : parseString w.limit d text = (rows, none)) :
    ∃ w', toStdout sys t p d enc w = (.ok 0, w') := by
  obtain ⟨g, h1, -⟩ := writeToStream_ok hq (t := t) hv ht hp
  unfold toStdout
  rw [act_bind_ok h1]
  exact ⟨_, rfl⟩

theorem toFile_ok {sys : Sys} (hq : Quiet sys) {t : Bool} {p o : Path} (hpo : p ≠ o) {d : SimpleDialect}
    {enc target : Option Str} {w : World} {text : Str} {rows : List (List Str)} {b : Bytes}
    (hv : d.validate = .ok ()) (ht : w.text sys p enc = some text)
    (hp : parseString w.limit d text = (rows, none))
    (he : encoded sys target (excelText (shown t rows)) = some b) :
    ∃ w', toFile sys t p o d enc target w = (.ok 0, w') := by
  obtain ⟨c, s, hc, he⟩ := encoded_some he
  have h0 : openWrite sys o w = (.ok (), w.next.set o (some [])) := by rw [openWrite_apply, hq]
  have h1 : openTextWrite sys o target w = (.ok c, w.next.set o (some [])) := by
    unfold openTextWrite
    rw [act_bind_ok h0, getCodec_apply, hc]
  have ht' : (w.next.set o (some [])).text sys p enc = some text := by
    rw [text_files (w := w) (by rw [World.set_other _ _ hpo]; rfl), ht]
  obtain ⟨g, h2, h3⟩ := writeToStream_ok hq (t := t) (w := w.next.set o (some [])) hv ht' hp
  obtain ⟨w', h4, -⟩ := writeGen_ok hq (p := o) (c := c) (pieces := g)
    (w := (w.next.set o (some [])).next) (by simp) (by rw [h3]; exact he)
  unfold toFile
  rw [act_bind_ok h1, act_bind_ok h2, act_bind_ok h4]
  exact ⟨_, rfl⟩

theorem sha1sum_ok {sys : Sys} (hq : Quiet sys) {p : Path} {w : World} {b : Bytes} (h : w.files p = some b) :
    sha1sum sys p w = (.ok (sys.sha1 (sha1Input 65536 b)), w.next) := by
  unfold sha1sum
  rw [act_bind_ok (openRead_quiet hq h)]
  rfl

theorem move_ok {sys : Sys} (hq : Quiet sys) {p q : Path} {w : World} {b : Bytes} (h : w.files p = some b) :
    ∃ w', move sys p q w = (.ok (), w') := by
  unfold move
  split
  · rw [act_bind_ok (openRead_quiet hq h),
      act_bind_ok (show openWrite sys q w.next = (.ok (), w.next.next.set q (some [])) by rw [openWrite_apply, hq])]
    have h2 := append_apply sys q b (w.next.next.set q (some []))
    rw [hq] at h2
    rw [act_bind_ok h2, unlink_apply, hq]
    exact ⟨_, rfl⟩
  · rw [rename_apply, hq]
    exact ⟨_, rfl⟩

theorem inPlace_ok {sys : Sys} (hq : Quiet sys) {t : Bool} {p : Path} {d : SimpleDialect}
    {enc target : Option Str} {w : World} {text : Str} {rows : List (List Str)} {b : Bytes}
    (hfresh : w.files (sys.tempName w.files) = none)
    (hv : d.validate = .ok ()) (ht : w.text sys p enc = some text)
    (hp : parseString w.limit d text = (rows, none))
    (he : encoded sys target (excelText (shown t rows)) = some b) :
    ∃ c w', inPlace sys t p d enc target w = (.ok c, w') := by
  obtain ⟨c, s, hc, he⟩ := encoded_some he
  obtain ⟨old, ho⟩ := text_some ht
  have hpo : p ≠ sys.tempName w.files := by intro h; rw [← h, ho] at hfresh; simp at hfresh
  have h0 : mkstemp sys w = (.ok (sys.tempName w.files), w.next.set (sys.tempName w.files) (some [])) := by
    rw [mkstemp_apply, hq]
    simp only [hfresh, if_true]
  generalize sys.tempName w.files = o at h0 hpo
  have h1 : getCodec sys target (w.next.set o (some [])) = (.ok c, w.next.set o (some [])) := by
    rw [getCodec_apply, hc]
  have ht' : (w.next.set o (some [])).text sys p enc = some text := by
    rw [text_files (w := w) (by rw [World.set_other _ _ hpo]; rfl), ht]
  obtain ⟨g, h2, h3⟩ := writeToStream_ok hq (t := t) (w := w.next.set o (some [])) hv ht' hp
  obtain ⟨w1, h4, h5, h6⟩ := writeGen_ok hq (p := o) (c := c) (pieces := g)
    (w := (w.next.set o (some [])).next) (by simp) (by rw [h3]; exact he)
  have h7 : w1.files p = some old := by
    rw [h6 p hpo, World.next_files, World.set_other _ _ hpo]
    exact ho
  unfold inPlace
  rw [act_bind_ok h0, act_bind_ok h1, act_bind_ok h2, act_bind_ok h4, act_bind_ok (sha1sum_ok hq h7),
    act_bind_ok (sha1sum_ok hq (w := w1.next) h5)]
  split
  · have h8 := unlink_apply sys o w1.next.next
    rw [hq] at h8
    rw [act_bind_ok h8]
    exact ⟨_, _, rfl⟩
  · obtain ⟨w2, h8⟩ := move_ok hq (p := o) (q := p) (w := w1.next.next) h5
    rw [act_bind_ok h8]
    exact ⟨_, _, rfl⟩

theorem handlePath_ok {sys : Sys} (hq : Quiet sys) (a : StdArgs) {p : Path} (output : Option Path)
    {enc : Option Str} {w : World} {text : Str} {r : Option SimpleDialect}
    (ht : w.text sys p (w.stdEncoding sys p enc) = some text)
    (hd : (detect sys.env sys.order w.limit (Spec.detectionPart text a.numChars)).result = .ok r) :
    ∃ w1, w1.files = w.files ∧ w1.limit = w.limit ∧ w1.stdout = w.stdout ∧
      handlePath sys a p output enc w =
        (match r with
        | none => (.ok 1, w1)
        | some d => deliver sys a p output d (w.stdEncoding sys p enc) (stdTarget a (w.stdEncoding sys p enc)) w1) := by
  obtain ⟨b, hb⟩ := text_some ht
  have henc : ∀ e' w, w.files p = some b → ∃ w0 : World, stdChoose sys p e' w = (.ok (w.stdEncoding sys p e'), w0) ∧
      w0.files = w.files ∧ w0.limit = w.limit ∧ w0.stdout = w.stdout := by
    intro e' w hb
    unfold stdChoose World.stdEncoding
    cases truthy e' with
    | some x => exact ⟨w, rfl, rfl, rfl, rfl⟩
    | none =>
      refine ⟨w.next, ?_, rfl, rfl, rfl⟩
      simp only
      unfold getEncoding
      rw [act_bind_ok (openRead_quiet hq hb)]
      simp [World.guess, hb]
  obtain ⟨w0, h0, hf0, hl0, hs0⟩ := henc enc w hb
  obtain ⟨w2, h2, hf2, hl2, hs2⟩ := henc (w.stdEncoding sys p enc) w0 (by rw [hf0, hb])
  have hguess : w0.stdEncoding sys p (w.stdEncoding sys p enc) = w.stdEncoding sys p enc := by
    have : w0.stdEncoding sys p (w.stdEncoding sys p enc) = w.stdEncoding sys p (w.stdEncoding sys p enc) := by
      unfold World.stdEncoding World.guess
      rw [hf0]
    rw [this, stdEncoding_idem]
  rw [hguess] at h2
  have ht2 : w2.text sys p (w.stdEncoding sys p enc) = some text := by
    rw [text_files (w := w) (by rw [hf2, hf0]), ht]
  have hdet : detectDialect sys p a.numChars (w.stdEncoding sys p enc) "auto".toList true w0 =
      runDetector sys (readSome text a.numChars) "auto".toList true w2.next := by
    have : detectDialect sys p a.numChars (w.stdEncoding sys p enc) "auto".toList true =
        (stdChoose sys p (w.stdEncoding sys p enc) >>= fun e => openText sys p e >>= fun text =>
          runDetector sys (readSome text a.numChars) "auto".toList true) := by
      unfold detectDialect stdChoose
      cases truthy (w.stdEncoding sys p enc) <;> rfl
    rw [this, act_bind_ok h2, act_bind_ok (openText_ok (hq _) ht2)]
  rw [readSome_eq, runDetector_apply, World.next_limit, hl2, hl0] at hdet
  rw [handlePath_eq, act_bind_ok h0]
  rw [hd] at hdet
  rw [act_bind_ok hdet]
  refine ⟨{ w2.next with
    limit := (detect sys.env sys.order w.limit (Spec.detectionPart text a.numChars)).limit },
    hf2.trans hf0, C37_restored_partial _ _ _ _ _ _ _ _ hd, hs2.trans hs0, ?_⟩
  cases r <;> rfl

end Clever
