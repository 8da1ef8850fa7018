import Verif.Proofs.ChunkedCmd
import Verif.Props.Standardize

/-!
# The standardize command with chunks and buffers finishes when nothing fails
-/

namespace Clever

open Spec Props

theorem openStream_ok {sys : Sys} {io : Io} (hio : IoOk sys io) (hq : Quiet sys) (hr : IoQuiet io) {p : Path} {e : Option Str}
    {w : World} {t : Str} (ht : w.text sys p e = some t) :
    ∃ f, openStream sys io p e w = (.ok f, w.next) ∧ Fresh f ∧ Readable f t := by
  obtain ⟨b, hb⟩ := text_some ht
  cases hc : sys.codec e with
  | none => simp [World.text, hb, hc] at ht
  | some c =>
    obtain ⟨d, hd, -⟩ := hio.decoder e c hc
    have h : openStream sys io p e w =
        (.ok { dec := d, chunks := (io.reads w.ticks b).1, fails := (io.reads w.ticks b).2 }, w.next) := by
      unfold openStream
      rw [openRead_quiet hq hb]
      simp only [hd]
    exact ⟨_, h, openStream_fresh hio h, (text_readable hio h ht).1 (hr _ _)⟩

theorem readSome_readable {f : TextIn} {t : Str} (hf : Fresh f) (hr : Readable f t) (n : Option Int) :
    f.readSome n = .ok (readSome t n) := by
  unfold TextIn.readSome readSome
  cases n with
  | none => exact (C123_all hf).1 t hr
  | some n =>
    simp only
    split
    · exact (C123_all hf).1 t hr
    · split
      · exact (C123_all hf).1 t hr
      · exact (C123_prefix hf _).1 t hr

theorem writeToStreamC_ok {sys : Sys} {io : Io} (hio : IoOk sys io) (hq : Quiet sys) (hr : IoQuiet io) {t : Bool} {p : Path}
    {d : SimpleDialect} {enc : Option Str} {w : World} {text : Str} {rows : List (List Str)} (hv : d.validate = .ok ())
    (ht : w.text sys p enc = some text) (hp : parseString w.limit d text = (rows, none)) :
    ∃ g, writeToStreamC sys io t p d enc w = (.ok (g, none), w.next) ∧ g.flatten = excelText (shown t rows) := by
  obtain ⟨g, h1, h2⟩ := writeToStream_ok hq (t := t) hv ht hp
  refine ⟨g, ?_, h2⟩
  rw [← h1]
  obtain ⟨f, h3, h4, h5⟩ := openStream_ok hio hq hr ht
  obtain ⟨h6, h7⟩ := items_readable h4 h5
  unfold writeToStreamC writeToStream
  rw [act_bind_ok h3, act_bind_ok (openText_ok (hq _) ht)]
  simp only [h6, h7]

theorem toStdoutC_ok {sys : Sys} {io : Io} (hio : IoOk sys io) (hq : Quiet sys) (hr : IoQuiet io) {t : Bool} {p : Path}
    {d : SimpleDialect} {enc : Option Str}
    {w : World} {text : Str} {rows : List (List Str)} (hv : d.validate = .ok ())
    (ht : w.text sys p enc = some text) (hp : parseString w.limit d text = (rows, none)) :
    ∃ w', toStdoutC sys io t p d enc w = (.ok 0, w') := by
  obtain ⟨g, h1, -⟩ := writeToStreamC_ok hio hq hr (t := t) hv ht hp
  unfold toStdoutC
  rw [act_bind_ok h1]
  exact ⟨_, rfl⟩

theorem toFileC_ok {sys : Sys} {io : Io} (hio : IoOk sys io) (hq : Quiet sys) (hr : IoQuiet io) {t : Bool} {p o : Path}
    (hpo : p ≠ o) {d : SimpleDialect} {enc target : Option Str} {w : World} {text : Str} {rows : List (List Str)} {b : Bytes}
    (hv : d.validate = .ok ()) (ht : w.text sys p enc = some text)
    (hp : parseString w.limit d text = (rows, none))
    (he : encoded sys target (excelText (shown t rows)) = some b) :
    ∃ w', toFileC sys io t p o d enc target w = (.ok 0, w') := by
  obtain ⟨c, s, hc, he⟩ := encoded_some he
  have h0 : openWrite sys o w = (.ok (), w.next.set o (some [])) := by rw [openWrite_apply, hq]
  have h1 : openTextWrite sys o target w = (.ok c, w.next.set o (some [])) := by
    unfold openTextWrite
    rw [act_bind_ok h0, getCodec_apply, hc]
  have ht' : (w.next.set o (some [])).text sys p enc = some text := by
    rw [text_files (w := w) (by rw [World.set_other _ _ hpo]; rfl), ht]
  obtain ⟨g, h2, h3⟩ := writeToStreamC_ok hio hq hr (t := t) (w := w.next.set o (some [])) hv ht' hp
  rcases h4 : writeAndClose sys io o c (g, none) (w.next.set o (some [])).next with ⟨r, w'⟩
  have h5 := (writeAndClose_spec (by simp) h4).2.2.2.2.2 hq rfl (by rw [h3, he]; simp)
  rw [h5] at h4
  unfold toFileC
  rw [act_bind_ok h1, act_bind_ok h2, act_bind_ok h4]
  exact ⟨_, rfl⟩

theorem inPlaceC_ok {sys : Sys} {io : Io} (hio : IoOk sys io) (hq : Quiet sys) (hr : IoQuiet io) {t : Bool} {p : Path}
    {d : SimpleDialect} {enc target : Option Str} {w : World} {text : Str} {rows : List (List Str)} {b : Bytes}
    (hfresh : w.files (sys.tempName w.files) = none)
    (hv : d.validate = .ok ()) (ht : w.text sys p enc = some text)
    (hp : parseString w.limit d text = (rows, none))
    (he : encoded sys target (excelText (shown t rows)) = some b) :
    ∃ c w', inPlaceC sys io t p d enc target w = (.ok c, w') := by
  obtain ⟨c, s, hc, he⟩ := encoded_some he
  obtain ⟨old, ho⟩ := text_some ht
  have hpo : p ≠ sys.tempName w.files := by intro h; rw [← h, ho] at hfresh; simp at hfresh
  have h0 : mkstemp sys w = (.ok (sys.tempName w.files), w.next.set (sys.tempName w.files) (some [])) := by
    rw [mkstemp_apply, hq]
    simp only [hfresh, if_true]
  generalize sys.tempName w.files = o at h0 hpo
  have h1 : getCodec sys target (w.next.set o (some [])) = (.ok c, w.next.set o (some [])) := by
    rw [getCodec_apply, hc]
  have ht' : (w.next.set o (some [])).text sys p enc = some text := by
    rw [text_files (w := w) (by rw [World.set_other _ _ hpo]; rfl), ht]
  obtain ⟨g, h2, h3⟩ := writeToStreamC_ok hio hq hr (t := t) (w := w.next.set o (some [])) hv ht' hp
  rcases h4 : writeThenClose sys io o c (g, none) (w.next.set o (some [])).next with ⟨r, w1⟩
  obtain ⟨h6, -, -, -, h5, h9⟩ := writeThenClose_spec (by simp) h4
  have h9 := h9 hq rfl (by rw [h3, he]; simp)
  subst h9
  obtain ⟨-, s', b', -, h5⟩ := h5 () rfl
  have h7 : w1.files p = some old := by
    rw [h6 p hpo, World.next_files, World.set_other _ _ hpo]
    exact ho
  unfold inPlaceC
  rw [act_bind_ok h0, act_bind_ok h1, act_bind_ok h2, act_bind_ok h4, act_bind_ok (sha1sum_ok hq h7),
    act_bind_ok (sha1sum_ok hq (w := w1.next) h5)]
  split
  · have h8 := unlink_apply sys o w1.next.next
    rw [hq] at h8
    rw [act_bind_ok h8]
    exact ⟨_, _, rfl⟩
  · obtain ⟨w2, h8⟩ := move_ok hq (p := o) (q := p) (w := w1.next.next) h5
    rw [act_bind_ok h8]
    exact ⟨_, _, rfl⟩

theorem stdChoose_ok {sys : Sys} (hq : Quiet sys) {p : Path} {w : World} {b : Bytes} (hb : w.files p = some b) (e : Option Str) :
    ∃ w0 : World, stdChoose sys p e w = (.ok (w.stdEncoding sys p e), w0) ∧
      w0.files = w.files ∧ w0.limit = w.limit ∧ w0.stdout = w.stdout := by
  unfold stdChoose World.stdEncoding
  cases truthy e with
  | some x => exact ⟨w, rfl, rfl, rfl, rfl⟩
  | none =>
    refine ⟨w.next, ?_, rfl, rfl, rfl⟩
    simp only
    unfold getEncoding
    rw [act_bind_ok (openRead_quiet hq hb)]
    simp [World.guess, hb]

theorem handlePathC_ok {sys : Sys} {io : Io} (hio : IoOk sys io) (hq : Quiet sys) (hr : IoQuiet io) (a : StdArgs) {p : Path}
    (output : Option Path) {enc : Option Str} {w : World} {text : Str} {r : Option SimpleDialect}
    (ht : w.text sys p (w.stdEncoding sys p enc) = some text)
    (hd : (detect sys.env sys.order w.limit (Spec.detectionPart text a.numChars)).result = .ok r) :
    ∃ w1, w1.files = w.files ∧ w1.limit = w.limit ∧ w1.stdout = w.stdout ∧
      handlePathC sys io a p output enc w =
        (match r with
        | none => (.ok 1, w1)
        | some d => deliverC sys io a p output d (w.stdEncoding sys p enc) (stdTarget a (w.stdEncoding sys p enc)) w1) := by
  obtain ⟨b, hb⟩ := text_some ht
  obtain ⟨w0, h0, hf0, hl0, hs0⟩ := stdChoose_ok hq hb enc
  obtain ⟨w2, h2, hf2, hl2, hs2⟩ := stdChoose_ok hq (w := w0) (by rw [hf0]; exact hb) (w.stdEncoding sys p enc)
  rw [stdEncoding_files hf0, stdEncoding_idem] at h2
  have ht2 : w2.text sys p (w.stdEncoding sys p enc) = some text := by
    rw [text_files (w := w) (by rw [hf2, hf0]), ht]
  obtain ⟨f, h3, h4, h5⟩ := openStream_ok hio hq hr ht2
  have hdet : detectDialectC sys io p a.numChars (w.stdEncoding sys p enc) "auto".toList true w0 =
      runDetector sys (readSome text a.numChars) "auto".toList true w2.next := by
    rw [detectDialectC_eq, act_bind_ok h2, act_bind_ok h3, readSome_readable h4 h5, act_bind_ok (liftExcept_apply _ _)]
  rw [readSome_eq, runDetector_apply, World.next_limit, hl2, hl0] at hdet
  rw [handlePathC_eq, act_bind_ok h0]
  rw [hd] at hdet
  rw [act_bind_ok hdet]
  refine ⟨{ w2.next with
    limit := (detect sys.env sys.order w.limit (Spec.detectionPart text a.numChars)).limit },
    hf2.trans hf0, C37_restored_partial _ _ _ _ _ _ _ _ hd, hs2.trans hs0, ?_⟩
  cases r <;> rfl

/-! ## The system without faults -/

theorem quiet_quiet (sys : Sys) : Quiet (quiet sys) := fun _ => rfl

theorem quiet_eq {sys : Sys} (hq : Quiet sys) : quiet sys = sys := by
  have : sys.fault = fun _ => none := funext hq
  obtain ⟨a, b, c, d, e, f, g, h⟩ := sys
  simp only at this
  subst this
  rfl

/-! ## Reading tables -/

theorem chooseEncoding_same {sys : Sys} {p : Path} {e e' : Option Str} {w w' : World}
    (h : chooseEncoding sys p e w = (.ok e', w')) :
    e' = w.encodingFor sys p e ∧ w'.files = w.files ∧ w'.limit = w.limit ∧ w'.stdout = w.stdout := by
  cases e with
  | some x =>
    simp only [chooseEncoding, act_pure, Prod.mk.injEq, Except.ok.injEq] at h
    obtain ⟨rfl, rfl⟩ := h
    exact ⟨rfl, rfl, rfl, rfl⟩
  | none =>
    simp only [chooseEncoding, getEncoding] at h
    obtain ⟨b, w1, h1, h⟩ := bind_inv h
    obtain ⟨hb, rfl⟩ := openRead_inv h1
    simp only [act_pure, Prod.mk.injEq, Except.ok.injEq] at h
    obtain ⟨rfl, rfl⟩ := h
    exact ⟨by simp [World.encodingFor, World.guess, hb], rfl, rfl, rfl⟩

theorem mkReader_form {src : Source} {a : DialectArg} {r : Reader} (h : mkReader src a = .ok r) :
    ∃ d, makeSimpleDialect a {} = .ok d ∧ r = ⟨src, d, 0, none⟩ := by
  simp only [mkReader, bind, Except.bind, pure, Except.pure] at h
  cases hd : makeSimpleDialect a {} with
  | error e => rw [hd] at h; simp at h
  | ok d =>
    rw [hd] at h
    simp only [Except.ok.injEq] at h
    exact ⟨d, rfl, h.symm⟩

theorem mkReader_of {a : DialectArg} {d : SimpleDialect} (h : makeSimpleDialect a {} = .ok d) (src : Source) :
    mkReader src a = .ok ⟨src, d, 0, none⟩ := by
  simp [mkReader, h, bind, Except.bind, pure, Except.pure]

theorem streamTableC_given {sys : Sys} {io : Io} {p : Path} {a : DialectArg} {enc : Option Str} {n : Option Int} {w w' : World}
    {g : Gen (List Str)} (h : streamTableC sys io p (some a) enc n w = (.ok g, w')) :
    ∃ f w1 d, openStream sys io p (w.encodingFor sys p enc) w1 = (.ok f, w1.next) ∧ w1.files = w.files ∧ w' = w1.next ∧
      w1.limit = w.limit ∧ w1.stdout = w.stdout ∧ makeSimpleDialect a {} = .ok d ∧
      g = f.passOn (parseData w.limit d mkPlain f.items) := by
  unfold streamTableC at h
  obtain ⟨e', w1, h1, h⟩ := bind_inv h
  obtain ⟨rfl, hf, hl, hs⟩ := chooseEncoding_same h1
  obtain ⟨f, w2, h2, h⟩ := bind_inv h
  have hw := (openStream_inv h2).1
  subst hw
  obtain ⟨r, w3, h3, h⟩ := bind_inv h
  obtain ⟨hr, rfl⟩ := liftExcept_inv h3
  obtain ⟨d, hd, rfl⟩ := mkReader_form hr
  rw [act_bind_ok (getLimit_apply _)] at h
  simp only [act_pure, Prod.mk.injEq, Except.ok.injEq] at h
  refine ⟨f, w1, d, h2, hf, h.2.symm, hl, hs, hd, ?_⟩
  rw [← h.1, Clever.readAll_eq, World.next_limit, hl]
  rfl

theorem streamTableC_detected {sys : Sys} {io : Io} (hio : IoOk sys io) {p : Path} {enc : Option Str} {n : Option Int} {w w' : World}
    {g : Gen (List Str)} (h : streamTableC sys io p none enc n w = (.ok g, w')) :
    ∃ f w1 d data, openStream sys io p (w.encodingFor sys p enc) w1 = (.ok f, w1.next) ∧ w1.files = w.files ∧ w' = w1.next ∧
      w1.limit = w.limit ∧ w1.stdout = w.stdout ∧
      (∀ text, w.text sys p (w.encodingFor sys p enc) = some text → data = Spec.detectionPart text n) ∧
      (detect sys.env sys.order w.limit data).result = .ok (some d) ∧
      g = f.passOn (parseData w.limit d mkPlain f.items) := by
  unfold streamTableC at h
  obtain ⟨e', w1, h1, h⟩ := bind_inv h
  obtain ⟨rfl, hf, hl, hs⟩ := chooseEncoding_same h1
  obtain ⟨f, w2, h2, h⟩ := bind_inv h
  have hw := (openStream_inv h2).1
  subst hw
  obtain ⟨data, w3, h3, h⟩ := bind_inv h
  obtain ⟨hdata, rfl⟩ := liftExcept_inv h3
  obtain ⟨r, w4, h4, h⟩ := bind_inv h
  rw [runDetector_apply, World.next_limit, hl] at h4
  simp only [Prod.mk.injEq] at h4
  obtain ⟨h4, rfl⟩ := h4
  have hlim := C37_restored_partial _ _ _ _ _ _ _ _ h4
  cases r with
  | none => simp at h
  | some d =>
    obtain ⟨f', w5, h5, h⟩ := bind_inv h
    have hw := (openStream_inv h5).1
    subst hw
    obtain ⟨r, w6, h6, h⟩ := bind_inv h
    obtain ⟨hr, rfl⟩ := liftExcept_inv h6
    have hr' := mkReader_simple_inv hr
    subst hr'
    rw [act_bind_ok (getLimit_apply _)] at h
    simp only [act_pure, Prod.mk.injEq, Except.ok.injEq] at h
    refine ⟨f', _, d, data, h5, hf, h.2.symm, hlim, hs, fun text ht => ?_, h4, ?_⟩
    · rw [← readSome_eq]
      exact readSome_text hio h2 (by rw [text_files (w := w) (by rw [hf])]; exact ht) hdata
    · rw [← h.1, Clever.readAll_eq, World.next_limit]
      simp only [hlim]
      rfl

end Clever
