import Verif.Model.Standardize
import Verif.Proofs.Acts
import Verif.Proofs.Scans
import Verif.Proofs.CellChars
import Verif.Props.Wrappers

/-!
# What the standardize command does
-/

namespace Clever

open Props

variable {α β : Type}

theorem bind_error_inv {m : Act α} {f : α → Act β} {w w' : World} {e : PyExc}
    (h : (m >>= f) w = (.error e, w')) :
    m w = (.error e, w') ∨ ∃ a w1, m w = (.ok a, w1) ∧ f a w1 = (.error e, w') := by
  rw [act_bind] at h
  rcases hm : m w with ⟨e' | a, w1⟩
  · rw [hm] at h
    simp only [Prod.mk.injEq, Except.error.injEq] at h
    exact .inl (by rw [h.1, h.2])
  · rw [hm] at h; exact .inr ⟨a, w1, rfl, h⟩

/-- The text that the excel writer writes for some rows. -/
def excelText (rows : List (List Str)) : Str := (excelWriter.writeRows rows).1

theorem excel_writeGen (rows : List (List Str)) :
    (excelWriter.writeGen rows).1.flatten = excelText rows ∧ (excelWriter.writeGen rows).2 = none := by
  obtain ⟨h1, h2⟩ := writeGen_flatten excelWriter rows
  exact ⟨h1, h2.trans (writeRows_ok (by decide) rfl rows)⟩

theorem excel_copyGen (g : Gen (List Str)) :
    (excelWriter.copyGen g).1.flatten = excelText g.1 ∧ (excelWriter.copyGen g).2 = g.2 := by
  obtain ⟨h1, h2⟩ := excel_writeGen g.1
  unfold WDialect.copyGen
  exact ⟨h1, by simp only [h2]; rfl⟩

theorem mkReader_simple_inv {src : Source} {d : SimpleDialect} {r : Reader}
    (h : mkReader src (.simple d) = .ok r) : r = ⟨src, d, 0, none⟩ := by
  simp only [mkReader, makeSimpleDialect, baseDialect, setParams_none, bind, Except.bind, pure, Except.pure] at h
  cases hv : d.validate with
  | error e => rw [hv] at h; simp at h
  | ok u => rw [hv] at h; simp at h; exact h.symm

/-- The rows that are written. -/
def shown (transpose : Bool) (rows : List (List Str)) : List (List Str) :=
  if transpose then zipRows rows else rows

theorem writeToStream_inv {sys : Sys} {t : Bool} {p : Path} {d : SimpleDialect} {enc : Option Str} {w w' : World}
    {g : Gen Str} (h : writeToStream sys t p d enc w = (.ok g, w')) :
    w' = w.next ∧ ∃ text, w.text sys p enc = some text ∧
      (g.2 = none → ∃ rows, parseString w.limit d text = (rows, none) ∧
        g.1.flatten = excelText (shown t rows)) := by
  unfold writeToStream at h
  obtain ⟨text, w1, h1, h⟩ := bind_inv h
  obtain ⟨ht, rfl⟩ := openText_inv h1
  obtain ⟨r, w2, h2, h⟩ := bind_inv h
  obtain ⟨hr, rfl⟩ := liftExcept_inv h2
  have hr' := mkReader_simple_inv hr
  subst hr'
  obtain ⟨l, w3, h3, h⟩ := bind_inv h
  rw [getLimit_apply] at h3
  simp only [Prod.mk.injEq, Except.ok.injEq] at h3
  obtain ⟨rfl, rfl⟩ := h3
  have hall : (⟨.stream (strItems (linesUniv text)), d, 0, none⟩ : Reader).readAll w.next.limit =
      parseString w.limit d text := Clever.readAll_eq _ _ _ _ _
  simp only [hall] at h
  cases t with
  | true =>
    simp only [if_true] at h
    obtain ⟨rows, w4, h4, h⟩ := bind_inv h
    obtain ⟨hrows, rfl⟩ := liftExcept_inv h4
    obtain ⟨wd, w5, h5, h⟩ := bind_inv h
    obtain ⟨hwd, rfl⟩ := liftExcept_inv h5
    rw [mkWriter_excel] at hwd
    cases hwd
    simp only [act_pure, Prod.mk.injEq, Except.ok.injEq] at h
    refine ⟨h.2.symm, text, ht, fun _ => ⟨rows, ?_, ?_⟩⟩
    · rcases hg : parseString w.limit d text with ⟨rows', _ | e⟩
      · rw [hg] at hrows; simp [Gen.toList] at hrows; rw [hrows]
      · rw [hg] at hrows; simp [Gen.toList] at hrows
    · rw [← h.1, (excel_writeGen _).1]
      rfl
  | false =>
    simp only [Bool.false_eq_true, if_false] at h
    obtain ⟨wd, w5, h5, h⟩ := bind_inv h
    obtain ⟨hwd, rfl⟩ := liftExcept_inv h5
    rw [mkWriter_excel] at hwd
    cases hwd
    simp only [act_pure, Prod.mk.injEq, Except.ok.injEq] at h
    refine ⟨h.2.symm, text, ht, fun hn => ⟨(parseString w.limit d text).1, ?_, ?_⟩⟩
    · rw [← h.1, (excel_copyGen _).2] at hn
      rw [← hn]
    · rw [← h.1, (excel_copyGen _).1]
      rfl

theorem only_writeToStream (P : Path → Prop) (sys : Sys) (t : Bool) (p : Path) (d : SimpleDialect)
    (enc : Option Str) : Only P (writeToStream sys t p d enc) := by
  unfold writeToStream
  refine (only_openText _ sys p enc).bind fun text => (only_liftExcept _ _).bind fun r =>
    (only_getLimit _).bind fun l => ?_
  simp only []
  split
  · exact (only_liftExcept _ _).bind fun _ => (only_liftExcept _ _).bind fun _ => only_pure _ _
  · exact (only_liftExcept _ _).bind fun _ => only_pure _ _

/-- Without faults, a readable file that can be parsed is written completely. -/
theorem writeToStream_ok {sys : Sys} (hq : Quiet sys) {t : Bool} {p : Path} {d : SimpleDialect} {enc : Option Str}
    {w : World} {text : Str} {rows : List (List Str)} (hv : d.validate = .ok ())
    (ht : w.text sys p enc = some text) (hp : parseString w.limit d text = (rows, none)) :
    ∃ g, writeToStream sys t p d enc w = (.ok (g, none), w.next) ∧ g.flatten = excelText (shown t rows) := by
  have hm : mkReader (.stream (strItems (linesUniv text))) (.simple d) =
      .ok ⟨.stream (strItems (linesUniv text)), d, 0, none⟩ := by
    simp only [mkReader, makeSimpleDialect, baseDialect, setParams_none, bind, Except.bind, pure, Except.pure, hv]
  have hall : (⟨.stream (strItems (linesUniv text)), d, 0, none⟩ : Reader).readAll w.next.limit = (rows, none) :=
    (Clever.readAll_eq _ _ _ _ _).trans hp
  unfold writeToStream
  rw [act_bind_ok (openText_ok (hq _) ht), hm, act_bind_ok (liftExcept_apply _ _), act_bind_ok (getLimit_apply _)]
  simp only [hall]
  cases t with
  | true =>
    refine ⟨(excelWriter.writeGen (zipRows rows)).1, ?_, (excel_writeGen _).1⟩
    simp only [if_true]
    rw [act_bind_ok (show liftExcept (Gen.toList (rows, none)) w.next = (.ok rows, w.next) from rfl),
      mkWriter_excel, act_bind_ok (liftExcept_apply _ _)]
    simp only [act_pure]
    rw [← (excel_writeGen (zipRows rows)).2]
  | false =>
    refine ⟨(excelWriter.copyGen (rows, none)).1, ?_, (excel_copyGen _).1⟩
    simp only [Bool.false_eq_true, if_false]
    rw [mkWriter_excel, act_bind_ok (liftExcept_apply _ _)]
    simp only [act_pure]
    exact congrArg (fun g => (Except.ok g, w.next)) (Prod.ext rfl (excel_copyGen (rows, none)).2)

/-- The bytes of a text in an encoding. -/
def encoded (sys : Sys) (enc : Option Str) (text : Str) : Option Bytes :=
  (sys.codec enc).bind fun c => (c.encodeFrom 0 text).map Prod.snd

theorem encoded_of {sys : Sys} {enc : Option Str} {c : Codec} {text : Str} {s : Nat} {b : Bytes}
    (hc : sys.codec enc = some c) (he : c.encodeFrom 0 text = some (s, b)) : encoded sys enc text = some b := by
  unfold encoded
  rw [hc, Option.bind_some, he]
  rfl

theorem sha1Input_eq (b : Bytes) : sha1Input 65536 b = b := by
  unfold sha1Input
  rw [sha1Loop_eq (by decide) _ _ _ (by omega), List.nil_append]

/-! ## In place -/

theorem text_files {sys : Sys} {w w' : World} {p : Path} {enc : Option Str} (h : w'.files p = w.files p) :
    w'.text sys p enc = w.text sys p enc := by
  unfold World.text
  rw [h]

theorem inPlace_inv {sys : Sys} {t : Bool} {p : Path} {d : SimpleDialect} {enc target : Option Str} {w w' : World}
    {c : Nat} {old : Bytes} (ho : w.files p = some old)
    (h : inPlace sys t p d enc target w = (.ok c, w')) :
    ∃ text rows b, w.text sys p enc = some text ∧ parseString w.limit d text = (rows, none) ∧
      encoded sys target (excelText (shown t rows)) = some b ∧ w'.stdout = w.stdout ∧ w'.limit = w.limit ∧
      (c = 0 ∧ sys.sha1 old = sys.sha1 b ∧ (∀ q, w'.files q = w.files q) ∨
       c = 2 ∧ sys.sha1 old ≠ sys.sha1 b ∧ w'.files p = some b ∧ (∀ q, q ≠ p → w'.files q = w.files q)) := by
  unfold inPlace at h
  obtain ⟨tmp, w1, h1, h⟩ := bind_inv h
  obtain ⟨-, hfresh, rfl⟩ := mkstemp_inv h1
  have hpt : p ≠ tmp := by rintro rfl; rw [ho] at hfresh; simp at hfresh
  obtain ⟨cd, w2, h2, h⟩ := bind_inv h
  obtain ⟨hcd, rfl⟩ := getCodec_inv h2
  obtain ⟨g, w3, h3, h⟩ := bind_inv h
  obtain ⟨rfl, text, ht, hg⟩ := writeToStream_inv h3
  rw [text_files (w := w) (by rw [World.set_other _ _ hpt]; rfl)] at ht
  obtain ⟨_, w4, h4, h⟩ := bind_inv h
  obtain ⟨hn, s, b, hb, h4f, h4l, h4o⟩ := writeGen_inv (old := []) (by simp) h4
  obtain ⟨rows, hrows, hflat⟩ := hg hn
  have h4only := only_writeGen sys tmp cd g (w.next.set tmp (some [])).next
  rw [h4] at h4only
  rw [List.nil_append] at h4f
  rw [hflat] at hb
  have hother : ∀ q, q ≠ tmp → w4.files q = w.files q := by
    intro q hq
    rw [h4only q hq, World.next_files, World.set_other _ _ hq]
    rfl
  obtain ⟨x, w5, h5, h⟩ := bind_inv h
  obtain ⟨b1, hb1, rfl, rfl⟩ := sha1sum_inv h5
  rw [hother p hpt, ho] at hb1
  cases hb1
  obtain ⟨y, w6, h6, h⟩ := bind_inv h
  obtain ⟨b2, hb2, rfl, rfl⟩ := sha1sum_inv h6
  rw [World.next_files, h4f] at hb2
  cases hb2
  rw [sha1Input_eq, sha1Input_eq] at h
  refine ⟨text, rows, b, ht, hrows, encoded_of hcd hb, ?_⟩
  split at h
  · rename_i heq
    obtain ⟨_, w7, h7, h⟩ := bind_inv h
    have := unlink_inv h7
    subst this
    simp only [act_pure, Prod.mk.injEq, Except.ok.injEq] at h
    rw [← h.2]
    refine ⟨h4o, h4l, .inl ⟨h.1.symm, heq, ?_⟩⟩
    intro q
    by_cases hq : q = tmp
    · subst hq; rw [World.set_self, hfresh]
    · rw [World.set_other _ _ hq]; exact hother q hq
  · rename_i hne
    obtain ⟨_, w7, h7, h⟩ := bind_inv h
    obtain ⟨hm1, hm2, hm3, hm4⟩ := move_inv (Ne.symm hpt) (b := b) (by simpa using h4f) h7
    have hm5 := only_move sys tmp p w4.next.next
    rw [h7] at hm5
    simp only [act_pure, Prod.mk.injEq, Except.ok.injEq] at h
    rw [← h.2]
    refine ⟨by rw [hm4]; exact h4o, by rw [hm3]; exact h4l, .inr ⟨h.1.symm, hne, hm1, ?_⟩⟩
    intro q hq
    by_cases hqt : q = tmp
    · subst hqt; rw [hm2, hfresh]
    · rw [hm5 q (by simp [hq, hqt])]; exact hother q hqt

/-- If anything fails, the file is unchanged, or (when moving it from another file system failed) the temporary
file holds the complete output; other files are unchanged. -/
theorem inPlace_error {sys : Sys} {t : Bool} {p : Path} {d : SimpleDialect} {enc target : Option Str}
    {w w' : World} {e : PyExc} {old : Bytes} (ho : w.files p = some old)
    (h : inPlace sys t p d enc target w = (.error e, w')) :
    (∀ q, q ≠ p → q ≠ sys.tempName w.files → w'.files q = w.files q) ∧
    (w'.files p = w.files p ∨
      sys.crossDevice = true ∧ ∃ text rows b, w.text sys p enc = some text ∧
        parseString w.limit d text = (rows, none) ∧
        encoded sys target (excelText (shown t rows)) = some b ∧ w'.files (sys.tempName w.files) = some b) := by
  unfold inPlace at h
  rcases bind_error_inv h with h | ⟨tmp, w1, h1, h⟩
  · have : w'.files = w.files := by
      rw [mkstemp_apply] at h
      cases hf : sys.fault w.ticks with
      | some k => rw [hf] at h; simp only [Prod.mk.injEq] at h; rw [← h.2]; rfl
      | none =>
        rw [hf] at h
        simp only at h
        split at h
        · simp at h
        · simp only [Prod.mk.injEq] at h; rw [← h.2]; rfl
    rw [this]
    exact ⟨fun _ _ _ => rfl, .inl rfl⟩
  obtain ⟨htmp, hfresh, rfl⟩ := mkstemp_inv h1
  rw [← htmp]
  have hpt : p ≠ tmp := by rintro rfl; rw [ho] at hfresh; simp at hfresh
  -- as long as only the temporary file changes
  have key : ∀ w'' : World, (∀ q, q ≠ tmp → w''.files q = w.files q) →
      (∀ q, q ≠ p → q ≠ tmp → w''.files q = w.files q) ∧ (w''.files p = w.files p ∨
      sys.crossDevice = true ∧ ∃ text rows b, w.text sys p enc = some text ∧
        parseString w.limit d text = (rows, none) ∧
        encoded sys target (excelText (shown t rows)) = some b ∧ w''.files tmp = some b) :=
    fun w'' hw => ⟨fun q _ hq => hw q hq, .inl (hw p hpt)⟩
  have h0 : ∀ q, q ≠ tmp → (w.next.set tmp (some [])).files q = w.files q := by
    intro q hq; rw [World.set_other _ _ hq]; rfl
  rcases bind_error_inv h with h | ⟨cd, w2, h2, h⟩
  · refine key w' fun q hq => ?_
    have := only_getCodec (· = tmp) sys target (w.next.set tmp (some [])) q hq
    rw [h] at this
    rw [this, h0 q hq]
  obtain ⟨hcd, rfl⟩ := getCodec_inv h2
  rcases bind_error_inv h with h | ⟨g, w3, h3, h⟩
  · refine key w' fun q hq => ?_
    have := only_writeToStream (· = tmp) sys t p d enc (w.next.set tmp (some [])) q hq
    rw [h] at this
    rw [this, h0 q hq]
  obtain ⟨rfl, text, ht, hg⟩ := writeToStream_inv h3
  rw [text_files (w := w) (by rw [World.set_other _ _ hpt]; rfl)] at ht
  rcases bind_error_inv h with h | ⟨_, w4, h4, h⟩
  · refine key w' fun q hq => ?_
    have := only_writeGen sys tmp cd g (w.next.set tmp (some [])).next q hq
    rw [h] at this
    rw [this, World.next_files, h0 q hq]
  obtain ⟨hn, s, b, hb, h4f, -, -⟩ := writeGen_inv (old := []) (by simp) h4
  obtain ⟨rows, hrows, hflat⟩ := hg hn
  have h4only := only_writeGen sys tmp cd g (w.next.set tmp (some [])).next
  rw [h4] at h4only
  rw [List.nil_append] at h4f
  rw [hflat] at hb
  have hother : ∀ q, q ≠ tmp → w4.files q = w.files q := by
    intro q hq
    rw [h4only q hq, World.next_files, h0 q hq]
  rcases bind_error_inv h with h | ⟨x, w5, h5, h⟩
  · refine key w' fun q hq => ?_
    have := only_sha1sum (· = tmp) sys p w4 q hq
    rw [h] at this
    rw [this, hother q hq]
  obtain ⟨-, -, -, rfl⟩ := sha1sum_inv h5
  rcases bind_error_inv h with h | ⟨y, w6, h6, h⟩
  · refine key w' fun q hq => ?_
    have := only_sha1sum (· = tmp) sys tmp w4.next q hq
    rw [h] at this
    rw [this, World.next_files, hother q hq]
  obtain ⟨-, -, -, rfl⟩ := sha1sum_inv h6
  split at h
  · rcases bind_error_inv h with h | ⟨_, w7, h7, h⟩
    · refine key w' fun q hq => ?_
      have := only_unlink sys tmp w4.next.next q hq
      rw [h] at this
      rw [this, World.next_files, World.next_files, hother q hq]
    · simp at h
  · rcases bind_error_inv h with h | ⟨_, w7, h7, h⟩
    · constructor
      · intro q hq hqt
        have := only_move sys tmp p w4.next.next q (by simp [hq, hqt])
        rw [h] at this
        rw [this, World.next_files, World.next_files, hother q hqt]
      · rcases move_error (Ne.symm hpt) h with ⟨hm, -⟩ | ⟨hc, hm⟩
        · left
          rw [hm, World.next_files, World.next_files, hother p hpt]
        · right
          refine ⟨hc, text, rows, b, ht, hrows, encoded_of hcd hb, ?_⟩
          rw [hm]
          exact h4f
    · simp at h

/-! ## To a file or the standard output -/

theorem toFile_inv {sys : Sys} {t : Bool} {p o : Path} (hpo : p ≠ o) {d : SimpleDialect} {enc target : Option Str}
    {w w' : World} {c : Nat} (h : toFile sys t p o d enc target w = (.ok c, w')) :
    ∃ text rows b, w.text sys p enc = some text ∧ parseString w.limit d text = (rows, none) ∧
      encoded sys target (excelText (shown t rows)) = some b ∧ w'.stdout = w.stdout ∧ w'.limit = w.limit ∧
      c = 0 ∧ w'.files o = some b ∧ (∀ q, q ≠ o → w'.files q = w.files q) := by
  unfold toFile at h
  obtain ⟨cd, w1, h1, h⟩ := bind_inv h
  unfold openTextWrite at h1
  obtain ⟨_, w2, h2, h1⟩ := bind_inv h1
  have := openWrite_inv h2
  subst this
  obtain ⟨hcd, rfl⟩ := getCodec_inv h1
  obtain ⟨g, w3, h3, h⟩ := bind_inv h
  obtain ⟨rfl, text, ht, hg⟩ := writeToStream_inv h3
  rw [text_files (w := w) (by rw [World.set_other _ _ hpo]; rfl)] at ht
  obtain ⟨_, w4, h4, h⟩ := bind_inv h
  obtain ⟨hn, s, b, hb, h4f, h4l, h4o⟩ := writeGen_inv (old := []) (by simp) h4
  obtain ⟨rows, hrows, hflat⟩ := hg hn
  have h4only := only_writeGen sys o cd g (w.next.set o (some [])).next
  rw [h4] at h4only
  rw [List.nil_append] at h4f
  rw [hflat] at hb
  simp only [act_pure, Prod.mk.injEq, Except.ok.injEq] at h
  rw [← h.2]
  refine ⟨text, rows, b, ht, hrows, encoded_of hcd hb, h4o, h4l, h.1.symm, h4f, ?_⟩
  intro q hq
  rw [h4only q hq, World.next_files, World.set_other _ _ hq]
  rfl

theorem only_toFile {sys : Sys} {t : Bool} {p o : Path} {d : SimpleDialect} {enc target : Option Str} :
    Only (· = o) (toFile sys t p o d enc target) :=
  (only_openTextWrite sys o target).bind fun _ => (only_writeToStream _ sys t p d enc).bind fun _ =>
    (only_writeGen sys o _ _).bind fun _ => only_pure _ _

theorem toStdout_inv {sys : Sys} {t : Bool} {p : Path} {d : SimpleDialect} {enc : Option Str}
    {w w' : World} {c : Nat} (h : toStdout sys t p d enc w = (.ok c, w')) :
    ∃ text rows, w.text sys p enc = some text ∧ parseString w.limit d text = (rows, none) ∧
      w'.stdout = w.stdout ++ excelText (shown t rows) ∧ w'.limit = w.limit ∧ c = 0 ∧ w'.files = w.files := by
  unfold toStdout at h
  obtain ⟨g, w3, h3, h⟩ := bind_inv h
  obtain ⟨rfl, text, ht, hg⟩ := writeToStream_inv h3
  obtain ⟨pieces, w4, h4, h⟩ := bind_inv h
  obtain ⟨hp, rfl⟩ := liftExcept_inv h4
  have hn : g.2 = none ∧ g.1 = pieces := by
    rcases g with ⟨a, _ | e⟩
    · simp [Gen.toList] at hp; exact ⟨rfl, hp⟩
    · simp [Gen.toList] at hp
  obtain ⟨rows, hrows, hflat⟩ := hg hn.1
  obtain ⟨_, w5, h5, h⟩ := bind_inv h
  simp only [printText, Prod.mk.injEq] at h5
  simp only [act_pure, Prod.mk.injEq, Except.ok.injEq] at h
  rw [← h.2, ← h5.2]
  refine ⟨text, rows, ht, hrows, ?_, rfl, h.1.symm, rfl⟩
  rw [← hflat, hn.2]
  rfl

theorem only_toStdout (P : Path → Prop) {sys : Sys} {t : Bool} {p : Path} {d : SimpleDialect} {enc : Option Str} :
    Only P (toStdout sys t p d enc) :=
  (only_writeToStream _ sys t p d enc).bind fun _ => (only_liftExcept _ _).bind fun _ =>
    Only.bind (fun _ _ _ => rfl) fun _ => only_pure _ _

end Clever
