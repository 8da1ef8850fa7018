import Verif.Proofs.ChunkedLive

/-!
# C124: chunks and buffers make no difference
-/

namespace Clever.Props

open Clever Spec

/-- C124, success: if the command succeeds, whatever was going on, it has done what it does if files are read at once and written
without a buffer, and nothing fails. -/
theorem C124_success {sys : Sys} {io : Io} (hio : IoOk sys io) (a : StdArgs) (p : Path) (output : Option Path)
    (hpo : a.inPlace = true ∨ output ≠ some p) (enc : Option Str) (w w' : World) (c : Nat) (hc : c ≠ 1)
    (h : handlePathC sys io a p output enc w = (.ok c, w')) :
    ∃ w2, handlePath (quiet sys) a p output enc w = (.ok c, w2) ∧ w2.files = w'.files ∧ w2.stdout = w'.stdout ∧
      w2.limit = w'.limit := by
  obtain ⟨old, data, r, w1, ho, hdata, hd, hf, hl, hs, h | ⟨d, rfl, h⟩⟩ := handlePathC_inv hio h
  · exact absurd h.2.1 hc
  have start : ∀ text, w1.text sys p (w.stdEncoding sys p enc) = some text →
      ∃ w1', w1'.files = w.files ∧ w1'.limit = w.limit ∧ w1'.stdout = w.stdout ∧
        w1'.text (quiet sys) p (w.stdEncoding sys p enc) = some text ∧
        handlePath (quiet sys) a p output enc w = deliver (quiet sys) a p output d (w.stdEncoding sys p enc)
          (stdTarget a (w.stdEncoding sys p enc)) w1' := by
    intro text ht
    rw [text_files (w := w) (by rw [hf])] at ht
    rw [hdata text ht] at hd
    obtain ⟨w1', k1, k2, k3, k4⟩ := handlePath_ok (quiet_quiet sys) a output (w := w) (p := p) (enc := enc) (text := text)
      (r := some d) ht hd
    exact ⟨w1', k1, k2, k3, (text_files (sys := quiet sys) (w := w) (by rw [k1])).trans ht, k4⟩
  unfold deliverC at h
  split at h
  · rename_i hi
    obtain ⟨hv, hfresh, text, rows, b, k1, k2, k3, k4, k5, k6⟩ := inPlaceC_inv hio (by rw [hf]; exact ho) h
    obtain ⟨w1', j1, j2, j3, j4, j5⟩ := start text k1
    obtain ⟨c2, w2, j6⟩ := inPlace_ok (quiet_quiet sys) (t := a.transpose) (target := stdTarget a (w.stdEncoding sys p enc))
      (by rw [j1, ← hf]; exact hfresh) hv j4 (by rw [j2, ← hl]; exact k2) k3
    have j6' := j6
    obtain ⟨text', rows', b', i1, i2, i3, i4, i5, i6⟩ := inPlace_inv (old := old) (by rw [j1]; exact ho) j6
    rw [j4] at i1
    cases i1
    rw [j2, ← hl, k2] at i2
    cases i2
    have i3' : some b = some b' := k3.symm.trans i3
    cases i3'
    refine ⟨w2, ?_, ?_, by rw [i4, j3, k4, hs], by rw [i5, j2, k5, hl]⟩
    · rw [j5]
      unfold deliver
      rw [if_pos hi, j6']
      rcases k6 with ⟨rfl, k, -⟩ | ⟨rfl, k, -⟩ <;> rcases i6 with ⟨rfl, i, -⟩ | ⟨rfl, i, -⟩
      · rfl
      · exact absurd k i
      · exact absurd i k
      · rfl
    · funext q
      rcases k6 with ⟨-, k, k'⟩ | ⟨-, k, k7, k8⟩ <;> rcases i6 with ⟨-, i, i'⟩ | ⟨-, i, i7, i8⟩
      · rw [i', k', j1, hf]
      · exact absurd k i
      · exact absurd i k
      · by_cases hq : q = p
        · subst hq
          rw [i7, k7]
        · rw [i8 q hq, k8 q hq, j1, hf]
  · rename_i hi
    split at h
    · obtain ⟨hv, text, rows, k1, k2, k3, k4, k5, k6⟩ := toStdoutC_inv hio h
      obtain ⟨w1', j1, j2, j3, j4, j5⟩ := start text k1
      obtain ⟨w2, j6⟩ := toStdout_ok (quiet_quiet sys) (t := a.transpose) hv j4 (by rw [j2, ← hl]; exact k2)
      have j6' := j6
      obtain ⟨text', rows', i1, i2, i3, i4, -, i6⟩ := toStdout_inv j6
      rw [j4] at i1
      cases i1
      rw [j2, ← hl, k2] at i2
      cases i2
      refine ⟨w2, ?_, by rw [i6, k6, j1, hf], by rw [i3, k3, j3, hs], by rw [i4, k4, j2, hl]⟩
      rw [j5, k5]
      unfold deliver
      rw [if_neg hi]
      exact j6'
    · rename_i o _
      have hne : p ≠ o := by
        rcases hpo with hpo | hpo
        · exact absurd hpo hi
        · rintro rfl
          exact hpo rfl
      obtain ⟨hv, text, rows, b, k1, k2, k3, k4, k5, k6, k7, k8⟩ := toFileC_inv hio hne h
      obtain ⟨w1', j1, j2, j3, j4, j5⟩ := start text k1
      obtain ⟨w2, j6⟩ := toFile_ok (quiet_quiet sys) (t := a.transpose) (target := stdTarget a (w.stdEncoding sys p enc))
        hne hv j4 (by rw [j2, ← hl]; exact k2) k3
      have j6' := j6
      obtain ⟨text', rows', b', i1, i2, i3, i4, i5, -, i7, i8⟩ := toFile_inv hne j6
      rw [j4] at i1
      cases i1
      rw [j2, ← hl, k2] at i2
      cases i2
      have i3' : some b = some b' := k3.symm.trans i3
      cases i3'
      refine ⟨w2, ?_, ?_, by rw [i4, j3, k4, hs], by rw [i5, j2, k5, hl]⟩
      · rw [j5, k6]
        unfold deliver
        rw [if_neg hi]
        exact j6'
      · funext q
        by_cases hq : q = o
        · subst hq
          rw [i7, k7]
        · rw [i8 q hq, k8 q hq, j1, hf]

/-- C124, exit code 1: nothing has changed, and if the whole file can be decoded, no dialect is detected for it. -/
theorem C124_one {sys : Sys} {io : Io} (hio : IoOk sys io) (a : StdArgs) (p : Path) (output : Option Path)
    (enc : Option Str) (w w' : World) (h : handlePathC sys io a p output enc w = (.ok 1, w')) :
    w'.files = w.files ∧ w'.stdout = w.stdout ∧ w'.limit = w.limit ∧
    ∀ text, w.text sys p (w.stdEncoding sys p enc) = some text →
      ∃ w2, handlePath (quiet sys) a p output enc w = (.ok 1, w2) := by
  obtain ⟨old, data, r, w1, ho, hdata, hd, hf, hl, hs, ⟨rfl, -, rfl⟩ | ⟨d, rfl, h⟩⟩ := handlePathC_inv hio h
  · refine ⟨hf, hs, hl, fun text ht => ?_⟩
    rw [hdata text ht] at hd
    obtain ⟨w1', k1, k2, k3, k4⟩ := handlePath_ok (quiet_quiet sys) a output (w := w) (p := p) (enc := enc) (text := text)
      (r := none) ht hd
    exact ⟨w1', k4⟩
  · exfalso
    unfold deliverC at h
    split at h
    · obtain ⟨-, -, _, _, _, -, -, -, -, -, h | h⟩ := inPlaceC_inv hio (by rw [hf]; exact ho) h <;> simp at h
    · split at h
      · obtain ⟨-, _, _, -, -, -, -, h, -⟩ := toStdoutC_inv hio h
        simp at h
      · unfold toFileC at h
        obtain ⟨_, _, -, h⟩ := bind_inv h
        obtain ⟨_, _, -, h⟩ := bind_inv h
        obtain ⟨_, _, -, h⟩ := bind_inv h
        simp at h

/-- C124: if nothing fails, the command does what it does if files are read at once and written without a buffer, however the reads
divide the file and whenever the buffer is flushed. -/
theorem C124_runs {sys : Sys} {io : Io} (hio : IoOk sys io) (hq : Quiet sys) (hr : IoQuiet io) (a : StdArgs) (p : Path)
    (output : Option Path) (hpo : a.inPlace = true ∨ output ≠ some p) (enc : Option Str) (w w2 : World) (c : Nat)
    (h : handlePath sys a p output enc w = (.ok c, w2)) :
    ∃ w', handlePathC sys io a p output enc w = (.ok c, w') ∧ w'.files = w2.files ∧ w'.stdout = w2.stdout ∧
      w'.limit = w2.limit := by
  obtain ⟨text, r, w1, ht, hd, hf, hl, hs, h1⟩ := handlePath_inv h
  obtain ⟨w1', k1, k2, k3, k4⟩ := handlePathC_ok hio hq hr a output ht hd
  rcases h1 with ⟨rfl, rfl, rfl⟩ | ⟨d, rfl, h1⟩
  · exact ⟨w1', k4, k1.trans hf.symm, k3.trans hs.symm, k2.trans hl.symm⟩
  have hv : d.validate = .ok () := (C40_valid _ _ _ _ _ _ _ _ (by simp) hd).1
  obtain ⟨old, ho⟩ := text_some ht
  have hc1 : c ≠ 1 := by
    rcases deliver_codes (by rw [hf]; exact ho) h1 with rfl | rfl <;> simp
  have ht' : w1'.text sys p (w.stdEncoding sys p enc) = some text := by
    rw [text_files (w := w) (by rw [k1]), ht]
  have ht1 : w1.text sys p (w.stdEncoding sys p enc) = some text := by
    rw [text_files (w := w) (by rw [hf]), ht]
  have main : ∃ c' w', deliverC sys io a p output d (w.stdEncoding sys p enc) (stdTarget a (w.stdEncoding sys p enc)) w1' =
      (.ok c', w') ∧ c' ≠ 1 := by
    unfold deliver at h1
    unfold deliverC
    split at h1
    · rename_i hi
      rw [if_pos hi]
      have hfresh : w1.files (sys.tempName w1.files) = none := by
        unfold inPlace at h1
        obtain ⟨tmp, w3, h3, -⟩ := bind_inv h1
        obtain ⟨e1, e2, -⟩ := mkstemp_inv h3
        rw [← e1]
        exact e2
      obtain ⟨text', rows, b, i1, i2, i3, -⟩ := inPlace_inv (by rw [hf]; exact ho) h1
      rw [ht1] at i1
      cases i1
      obtain ⟨c', w', j⟩ := inPlaceC_ok hio hq hr (t := a.transpose) (w := w1')
        (target := stdTarget a (w.stdEncoding sys p enc))
        (by rw [k1, ← hf]; exact hfresh) hv ht' (by rw [k2, ← hl]; exact i2) i3
      refine ⟨c', w', j, ?_⟩
      obtain ⟨-, -, _, _, _, -, -, -, -, -, e | e⟩ := inPlaceC_inv hio (old := old) (by rw [k1]; exact ho) j
      · rw [e.1]; simp
      · rw [e.1]; simp
    · rename_i hi
      rw [if_neg hi]
      split at h1
      · obtain ⟨text', rows, i1, i2, -⟩ := toStdout_inv h1
        rw [ht1] at i1
        cases i1
        obtain ⟨w', j⟩ := toStdoutC_ok hio hq hr (t := a.transpose) (w := w1') hv ht' (by rw [k2, ← hl]; exact i2)
        exact ⟨0, w', j, by simp⟩
      · rename_i o
        have hne : p ≠ o := by
          rcases hpo with hpo | hpo
          · exact absurd hpo hi
          · rintro rfl
            exact hpo rfl
        obtain ⟨text', rows, b, i1, i2, i3, -⟩ := toFile_inv hne h1
        rw [ht1] at i1
        cases i1
        obtain ⟨w', j⟩ := toFileC_ok hio hq hr (t := a.transpose) (w := w1') hne hv ht' (by rw [k2, ← hl]; exact i2) i3
        exact ⟨0, w', j, by simp⟩
  obtain ⟨c', w', j, hc'⟩ := main
  have hrun : handlePathC sys io a p output enc w = (.ok c', w') := k4.trans j
  obtain ⟨w3, e1, e2, e3, e4⟩ := C124_success hio a p output hpo enc w w' c' hc' hrun
  rw [quiet_eq hq, h] at e1
  simp only [Prod.mk.injEq, Except.ok.injEq] at e1
  obtain ⟨rfl, rfl⟩ := e1
  exact ⟨w', hrun, e2.symm, e3.symm, e4.symm⟩

/-- C124, failure in place: the file is unchanged, or else it is being replaced by a copy of the complete output, which the
temporary file still holds; the latter only if that is on another file system.  Other files are unchanged. -/
theorem C124_failure_in_place {sys : Sys} {io : Io} (hio : IoOk sys io) (a : StdArgs) (hi : a.inPlace = true) (p : Path)
    (o : Option Path) (enc : Option Str) (w w' : World) (e : PyExc) (h : handlePathC sys io a p o enc w = (.error e, w')) :
    (∀ q, q ≠ p → q ≠ sys.tempName w.files → w'.files q = w.files q) ∧
    (w'.files p = w.files p ∨
      sys.crossDevice = true ∧ ∃ rows out b, DetectedRows sys w p enc a.numChars rows ∧
        StandardText (Spec.output a.transpose rows) out ∧
        Encodes sys (stdTarget a (w.stdEncoding sys p enc)) out b ∧ w'.files (sys.tempName w.files) = some b) := by
  rcases handlePathC_error hio h with hf | ⟨old, data, d, w1, ho, hdata, h2, hf, hl, hs, h⟩
  · rw [hf.1]
    exact ⟨fun _ _ _ => rfl, .inl rfl⟩
  · unfold deliverC at h
    rw [hi] at h
    simp only [if_true] at h
    obtain ⟨h3, h4⟩ := inPlaceC_error hio (by rw [hf]; exact ho) h
    rw [hf] at h3 h4
    refine ⟨h3, ?_⟩
    rcases h4 with h4 | ⟨h4, text, rows, b, h5, h6, h7, h8⟩
    · exact .inl h4
    · rw [text_files (w := w) (by rw [hf])] at h5
      rw [hl] at h6
      rw [hdata text h5] at h2
      exact .inr ⟨h4, rows, excelText (shown a.transpose rows), b, ⟨text, d, h5, h2, h6⟩, standardText_excelText _,
        encodes_of h7, h8⟩

/-- C124, failure with an output file: other files are unchanged; if the command would write `b` without failures, then the output
file is unchanged or has the beginning of `b`. -/
theorem C124_failure_file {sys : Sys} {io : Io} (hio : IoOk sys io) (a : StdArgs) (hi : a.inPlace = false) (p o : Path)
    (hpo : p ≠ o) (enc : Option Str) (w w' : World) (e : PyExc) (h : handlePathC sys io a p (some o) enc w = (.error e, w')) :
    (∀ q, q ≠ o → w'.files q = w.files q) ∧ w'.stdout = w.stdout ∧
    ∀ w2 c b, handlePath (quiet sys) a p (some o) enc w = (.ok c, w2) → c ≠ 1 → w2.files o = some b →
      w'.files o = w.files o ∨ ∃ cur, w'.files o = some cur ∧ cur <+: b := by
  rcases handlePathC_error hio h with hf | ⟨old, data, d, w1, ho, hdata, h2, hf, hl, hs, h⟩
  · exact ⟨fun _ _ => by rw [hf.1], hf.2, fun _ _ _ _ _ _ => .inl (by rw [hf.1])⟩
  · unfold deliverC at h
    rw [hi] at h
    simp only [Bool.false_eq_true, if_false] at h
    obtain ⟨h3, h4, h5⟩ := toFileC_error hio hpo h
    rw [hf] at h3 h5
    refine ⟨h3, by rw [h4, hs], fun w2 c b h6 hc hb => ?_⟩
    obtain ⟨text, r, w3, k1, k2, kf, kl, ks, k3 | ⟨d', rfl, k3⟩⟩ := handlePath_inv h6
    · exact absurd k3.2.1 hc
    · unfold deliver at k3
      rw [hi] at k3
      simp only [Bool.false_eq_true, if_false] at k3
      obtain ⟨text', rows, b', i1, i2, i3, -, -, -, i7, -⟩ := toFile_inv hpo k3
      have i1' : w3.text sys p (w.stdEncoding sys p enc) = some text' := i1
      rw [text_files (w := w) (by rw [kf])] at i1'
      have k1' : w.text sys p (w.stdEncoding sys p enc) = some text := k1
      rw [k1'] at i1'
      cases i1'
      rw [hdata text k1'] at h2
      have k2' : (detect sys.env sys.order w.limit (Spec.detectionPart text a.numChars)).result = .ok (some d') := k2
      rw [h2] at k2'
      cases k2'
      rw [i7] at hb
      cases hb
      refine h5 text rows b (by rw [text_files (w := w) (by rw [hf])]; exact k1') ?_ i3
      rw [hl, ← kl]
      exact i2

/-- C124, failure with the standard output: nothing is printed. -/
theorem C124_failure_stdout {sys : Sys} {io : Io} (hio : IoOk sys io) (a : StdArgs) (hi : a.inPlace = false) (p : Path)
    (enc : Option Str) (w w' : World) (e : PyExc) (h : handlePathC sys io a p none enc w = (.error e, w')) :
    w'.files = w.files ∧ w'.stdout = w.stdout := by
  rcases handlePathC_error hio h with hf | ⟨old, data, d, w1, ho, hdata, h2, hf, hl, hs, h⟩
  · exact hf
  · unfold deliverC at h
    rw [hi] at h
    simp only [Bool.false_eq_true, if_false] at h
    obtain ⟨h3, h4⟩ := toStdoutC_error h
    exact ⟨h3.trans hf, h4.trans hs⟩

/-! ## Reading tables -/

/-- C124, tables: if `stream_table` gives all rows without an exception, whatever was going on, then these are the rows it gives
if files are read at once.  If it raises an exception while giving the rows of a file that can be decoded, it has given these rows
up to some point. -/
theorem C124_read {sys : Sys} {io : Io} (hio : IoOk sys io) (p : Path) (dialect : Option DialectArg) (enc : Option Str)
    (n : Option Int) (w w' : World) (g : Gen (List Str)) (h : streamTableC sys io p dialect enc n w = (.ok g, w')) :
    Same w w' ∧
    (g.2 = none → ∃ w2, streamTable (quiet sys) p dialect enc n w = (.ok g, w2)) ∧
    (∀ text, w.text sys p (w.encodingFor sys p enc) = some text →
      ∃ g0 w2, streamTable (quiet sys) p dialect enc n w = (.ok g0, w2) ∧ (g = g0 ∨ g.2 ≠ none ∧ g.1 <+: g0.1)) := by
  have main : ∃ f w1 d, openStream sys io p (w.encodingFor sys p enc) w1 = (.ok f, w1.next) ∧ w1.files = w.files ∧
      Same w w' ∧ g = f.passOn (parseData w.limit d mkPlain f.items) ∧
      ∀ text, w.text sys p (w.encodingFor sys p enc) = some text →
        ∃ w2, streamTable (quiet sys) p dialect enc n w = (.ok (parseString w.limit d text), w2) := by
    cases dialect with
    | some a =>
      obtain ⟨f, w1, d, h1, h2, rfl, h3, h4, h5, h6⟩ := streamTableC_given h
      refine ⟨f, w1, d, h1, h2, ⟨h2, h3, h4⟩, h6, fun text ht => ?_⟩
      obtain ⟨w2, k1, -⟩ := C51_table_given (quiet sys) (quiet_quiet sys) w p enc text ht a n
      refine ⟨w2, ?_⟩
      rw [k1, mkReader_of h5]
      simp only [Except.map, Clever.readAll_eq]
      rfl
    | none =>
      obtain ⟨f, w1, d, data, h1, h2, rfl, h3, h4, h5, h6, h7⟩ := streamTableC_detected hio h
      refine ⟨f, w1, d, h1, h2, ⟨h2, h3, h4⟩, h7, fun text ht => ?_⟩
      obtain ⟨w2, k1, -⟩ := C51_table_detected (quiet sys) (quiet_quiet sys) w p enc text ht n
      rw [h5 text ht] at h6
      have h6' : (detect (quiet sys).env (quiet sys).order w.limit (Spec.detectionPart text n)).result = .ok (some d) := h6
      rw [h6'] at k1
      exact ⟨w2, k1⟩
  obtain ⟨f, w1, d, h1, h2, h3, rfl, h4⟩ := main
  obtain ⟨k1, k2⟩ := streamRows hio h1 w.limit d
  refine ⟨h3, fun hn => ?_, fun text ht => ?_⟩
  · obtain ⟨text, ht, e⟩ := k1 hn
    rw [text_files (w := w) (by rw [h2])] at ht
    rw [e]
    exact h4 text ht
  · obtain ⟨w2, k3⟩ := h4 text ht
    exact ⟨_, w2, k3, k2 text (by rw [text_files (w := w) (by rw [h2])]; exact ht)⟩

/-- C124, tables: if nothing fails and the file can be decoded, `stream_table` does what it does if files are read at once. -/
theorem C124_read_runs {sys : Sys} {io : Io} (hio : IoOk sys io) (hq : Quiet sys) (hr : IoQuiet io) (p : Path)
    (dialect : Option DialectArg) (enc : Option Str) (n : Option Int) (w : World) (text : Str)
    (ht : w.text sys p (w.encodingFor sys p enc) = some text) :
    (streamTableC sys io p dialect enc n w).1 = (streamTable sys p dialect enc n w).1 := by
  obtain ⟨b, hb⟩ := text_some ht
  obtain ⟨w1, h1, hf, hl, hs⟩ := chooseEncoding_ok hq hb enc
  obtain ⟨f, h2, h3, h4⟩ := openStream_ok hio hq hr (w := w1) (by rw [text_files (w := w) (by rw [hf])]; exact ht)
  obtain ⟨h5, h6⟩ := items_readable h3 h4
  unfold streamTableC
  rw [act_bind_ok h1, act_bind_ok h2]
  cases dialect with
  | some a =>
    obtain ⟨w2, k1, -⟩ := C51_table_given sys hq w p enc text ht a n
    rw [k1, h5]
    simp only [act_bind, liftExcept_apply]
    cases hm : mkReader (.stream (strItems (linesUniv text))) a with
    | error e => rfl
    | ok r =>
      simp only [Except.map, getLimit_apply, act_pure, h6, World.next_limit, hl]
  | none =>
    obtain ⟨w2, k1, -⟩ := C51_table_detected sys hq w p enc text ht n
    simp only
    rw [k1, readSome_readable h3 h4, act_bind_ok (liftExcept_apply _ _), readSome_eq]
    have hdet := runDetector_apply sys (Spec.detectionPart text n) w1.next
    rw [World.next_limit, hl] at hdet
    cases hr' : (detect sys.env sys.order w.limit (Spec.detectionPart text n)).result with
    | error e =>
      rw [hr'] at hdet
      rw [act_bind_error hdet]
    | ok x =>
      have hlim := C37_restored_partial _ _ _ _ _ _ _ _ hr'
      rw [hr'] at hdet
      rw [act_bind_ok hdet]
      cases x with
      | none => rfl
      | some d =>
        obtain ⟨f', j2, j3, j4⟩ := openStream_ok hio hq hr
          (w := { w1.next with limit := (detect sys.env sys.order w.limit (Spec.detectionPart text n)).limit })
          (e := w.encodingFor sys p enc) (p := p) (t := text)
          (by rw [text_files (w := w) (by simp only [World.next_files]; rw [hf])]; exact ht)
        obtain ⟨j5, j6⟩ := items_readable j3 j4
        simp only
        rw [act_bind_ok j2, j5, mkReader_detected (.stream (strItems (linesUniv text))) hr',
          act_bind_ok (liftExcept_apply _ _), act_bind_ok (getLimit_apply _)]
        simp only [act_pure, j6, World.next_limit, Clever.readAll_eq, hlim]
        rfl

/-- C124, files that cannot be decoded or read to the end: with a given dialect, `stream_table` raises an exception after the rows
that end before; these are the rows that it would give for the text that could be read (`t`) however that might go on (`u`). -/
theorem C124_broken {sys : Sys} {io : Io} (hio : IoOk sys io) (p : Path) (a : DialectArg) (enc : Option Str) (n : Option Int)
    (w w' : World) (g : Gen (List Str)) (h : streamTableC sys io p (some a) enc n w = (.ok g, w')) :
    ∃ f d, makeSimpleDialect a {} = .ok d ∧ Fresh f ∧ (∃ b k, w.files p = some b ∧ f.chunks = (io.reads k b).1 ∧
        f.fails = (io.reads k b).2 ∧ io.decoder (w.encodingFor sys p enc) = some f.dec) ∧
      ∀ t e, Breaks f t e → g.2 ≠ none ∧ ∀ u, g = parseString w.limit d (t ++ u) ∨
        g.2 = some e ∧ g.1 <+: (parseString w.limit d (t ++ u)).1 := by
  obtain ⟨f, w1, d, h1, h2, -, -, -, h3, rfl⟩ := streamTableC_given h
  have hf := openStream_fresh hio h1
  refine ⟨f, d, h3, hf, ?_, fun t e hb => passOn_breaks hf hb _ _⟩
  obtain ⟨-, b, dec, hb, hd, rfl⟩ := openStream_inv h1
  exact ⟨b, w1.ticks, by rw [← h2]; exact hb, rfl, rfl, hd⟩

/-! ## Writing tables -/

/-- C124, `write_table`: if it succeeds, whatever was going on, it has done what it does if files are written without a buffer and
nothing fails.  If it fails, only its file has changed, and has the beginning of what is written otherwise.  If nothing fails, it
succeeds if it does so without a buffer. -/
theorem C124_write (sys : Sys) (io : Io) (table : Iter (List Str)) (p : Path) (dialect : DialectArg) (t : Bool) (enc : Option Str)
    (w w' : World) (r : Except PyExc Unit) (h : writeTableC sys io table p dialect t enc w = (r, w')) :
    (r = .ok () → ∃ w2, writeTable (quiet sys) table p dialect t enc w = (.ok (), w2) ∧ w2.files = w'.files ∧
      w2.stdout = w'.stdout ∧ w2.limit = w'.limit) ∧
    (∀ q, q ≠ p → w'.files q = w.files q) ∧ w'.stdout = w.stdout ∧ w'.limit = w.limit ∧
    (∀ w2, writeTable (quiet sys) table p dialect t enc w = (.ok (), w2) →
      w'.files p = w.files p ∨ ∃ b cur, w2.files p = some b ∧ w'.files p = some cur ∧ cur <+: b) ∧
    (Quiet sys → ∀ w2, writeTable sys table p dialect t enc w = (.ok (), w2) → r = .ok ()) := by
  unfold writeTableC at h
  unfold writeTable
  split at h
  · rename_i hfalsy
    simp only [act_pure, Prod.mk.injEq] at h
    obtain ⟨rfl, rfl⟩ := h
    rw [if_pos hfalsy, if_pos hfalsy]
    exact ⟨fun _ => ⟨w, rfl, rfl, rfl, rfl⟩, fun _ _ => rfl, rfl, rfl, fun _ _ => .inl rfl, fun _ _ _ => rfl⟩
  rename_i hfalsy
  rw [if_neg hfalsy, if_neg hfalsy]
  simp only at h ⊢
  generalize (if t then zipRows table.items else table.items) = rows at *
  split at h
  · rename_i hrag
    rw [if_pos hrag, if_pos hrag]
    simp only [raise, Prod.mk.injEq] at h
    obtain ⟨rfl, rfl⟩ := h
    refine ⟨by simp, fun _ _ => rfl, rfl, rfl, fun _ _ => .inl rfl, fun _ w2 h2 => by simp [raise] at h2⟩
  rename_i hrag
  rw [if_neg hrag, if_neg hrag]
  have hset : ∀ q, q ≠ p → (w.next.set p (some [])).files q = w.files q := by
    intro q hq; rw [World.set_other _ _ hq]; rfl
  have hquiet : openWrite (quiet sys) p w = (.ok (), w.next.set p (some [])) := by rw [openWrite_apply]; rfl
  cases hfault : sys.fault w.ticks with
  | some k =>
    have h0 : openTextWrite sys p enc w = (.error .osError, w.next) := by
      unfold openTextWrite
      have : openWrite sys p w = (.error .osError, w.next) := by rw [openWrite_apply, hfault]
      rw [act_bind_error this]
    rw [act_bind_error h0] at h
    simp only [Prod.mk.injEq] at h
    obtain ⟨rfl, rfl⟩ := h
    refine ⟨by simp, fun _ _ => rfl, rfl, rfl, fun _ _ => .inl rfl, fun hq => ?_⟩
    rw [hq] at hfault
    cases hfault
  | none =>
    have h0 : openWrite sys p w = (.ok (), w.next.set p (some [])) := by rw [openWrite_apply, hfault]
    cases hc : sys.codec enc with
    | none =>
      have h1 : openTextWrite sys p enc w = (.error .lookupError, w.next.set p (some [])) := by
        unfold openTextWrite
        rw [act_bind_ok h0, getCodec_apply, hc]
      have h2 : openTextWrite (quiet sys) p enc w = (.error .lookupError, w.next.set p (some [])) := by
        unfold openTextWrite
        rw [act_bind_ok hquiet, getCodec_apply]
        simp only [quiet, hc]
      rw [act_bind_error h1] at h
      simp only [Prod.mk.injEq] at h
      obtain ⟨rfl, rfl⟩ := h
      refine ⟨by simp, hset, rfl, rfl, ?_, ?_⟩
      · intro w2 h3
        rw [act_bind_error h2] at h3
        simp at h3
      · intro _ w2 h3
        rw [act_bind_error h1] at h3
        simp at h3
    | some c =>
      have h1 : openTextWrite sys p enc w = (.ok c, w.next.set p (some [])) := by
        unfold openTextWrite
        rw [act_bind_ok h0, getCodec_apply, hc]
      have h2 : openTextWrite (quiet sys) p enc w = (.ok c, w.next.set p (some [])) := by
        unfold openTextWrite
        rw [act_bind_ok hquiet, getCodec_apply]
        simp only [quiet, hc]
      rw [act_bind_ok h1] at h
      cases hm : mkWriter dialect with
      | error e =>
        rw [hm, act_bind_error (liftExcept_apply _ _)] at h
        simp only [Prod.mk.injEq] at h
        obtain ⟨rfl, rfl⟩ := h
        refine ⟨by simp, hset, rfl, rfl, ?_, ?_⟩
        · intro w2 h4
          rw [act_bind_ok h2, act_bind_error (liftExcept_apply _ _)] at h4
          simp at h4
        · intro _ w2 h4
          rw [act_bind_ok h1, act_bind_error (liftExcept_apply _ _)] at h4
          simp at h4
      | ok wd =>
        rw [hm, act_bind_ok (liftExcept_apply _ _)] at h
        obtain ⟨k1, k2, k3, ⟨cur, k4, k, s, b, k5, k6⟩, k7, k8⟩ := writeAndClose_spec (by simp) h
        refine ⟨?_, fun q hq => by rw [k1 q hq, hset q hq], k3, k2, ?_, ?_⟩
        · rintro rfl
          obtain ⟨hn, s', b', hb, hfile⟩ := k7 () rfl
          obtain ⟨w2, j1, j2, j3⟩ := writeGen_ok (quiet_quiet sys) (p := p) (w := w.next.set p (some [])) (by simp) hb
          rw [← hn] at j1
          obtain ⟨-, _, _, -, -, j4, j5⟩ := writeGen_inv (old := []) (by simp) j1
          refine ⟨w2, ?_, ?_, by rw [j5, k3], by rw [j4, k2]⟩
          · rw [act_bind_ok h2, act_bind_ok (liftExcept_apply _ _)]
            exact j1
          · funext q
            by_cases hq : q = p
            · subst hq; rw [j2, hfile]
            · rw [j3 q hq, k1 q hq]
        · intro w2 h4
          rw [act_bind_ok h2, act_bind_ok (liftExcept_apply _ _)] at h4
          obtain ⟨hn, s', b', hb, hfile, -⟩ := writeGen_inv (old := []) (by simp) h4
          refine .inr ⟨b', cur, by simpa using hfile, k4, ?_⟩
          obtain ⟨r', hr'⟩ := List.take_prefix k (wd.writeGen rows).1
          rw [← hr', List.flatten_append, encodeFrom_append, k5, Option.bind_some] at hb
          cases hx : c.encodeFrom s r'.flatten with
          | none => simp [hx] at hb
          | some y =>
            simp [hx] at hb
            rw [← hb.2]
            exact k6.trans (List.prefix_append _ _)
        · intro hq w2 h4
          rw [act_bind_ok h1, act_bind_ok (liftExcept_apply _ _)] at h4
          obtain ⟨hn, s', b', hb, -⟩ := writeGen_inv (old := []) (by simp) h4
          exact k8 hq hn (by rw [hb]; simp)

/-! ## Examples -/

/-- Chunks of at most two bytes. -/
def pairs : Bytes → List Bytes
  | [] => []
  | [a] => [[a]]
  | a :: b :: l => [a, b] :: pairs l

theorem pairs_spec : ∀ b, [] ∉ pairs b ∧ (pairs b).flatten = b
  | [] => by simp [pairs]
  | [a] => by simp [pairs]
  | a :: b :: l => by simp [pairs, pairs_spec l]

/-- Files are read by two bytes; three bytes are flushed with every write. -/
def demoIo : Io where
  reads _ b := (pairs b, false)
  decoder _ := some asciiDecoder
  flush _ := 3

/-- The same, but the file system fails after the first six bytes. -/
def brokenIo : Io where
  reads _ b := ((pairs b).take 3, decide (3 < (pairs b).length))
  decoder _ := some asciiDecoder
  flush _ := 3

theorem asciiDecoder_whole (b : Bytes) : asciiCodec.decode b = asciiDecoder.whole b := by
  have key : ∀ (b : Bytes) (s : Nat), asciiDecoder.feed s b =
      if b.all (· < 128) then some (s, b.map fun x => Char.ofNat x.toNat) else none := by
    intro b
    induction b with
    | nil => intro s; rfl
    | cons x b ih =>
      intro s
      simp only [Decoder.feed, asciiDecoder] at ih ⊢
      by_cases hx : x < 128
      · simp only [hx, if_true, ih]
        by_cases hb : b.all (· < 128) = true
        · simp [hb, hx]
        · simp [hb, hx]
      · simp [hx]
  simp only [asciiCodec, Decoder.whole, Decoder.decode, key]
  by_cases hb : b.all (· < 128) = true
  · simp [hb, asciiDecoder]
  · simp [hb]

theorem demoIo_ok : IoOk demoSys demoIo ∧ IoQuiet demoIo where
  left :=
    { nonempty := fun _ b => (pairs_spec b).1
      start := fun _ b => by rw [show (demoIo.reads _ b).1 = pairs b from rfl, (pairs_spec b).2]
      whole := fun _ b _ => (pairs_spec b).2
      decoder := fun _ c h => by
        simp only [demoSys, Option.some.injEq] at h
        subst h
        exact ⟨asciiDecoder, rfl, asciiDecoder_whole⟩
      lookup := fun _ h => by simp [demoSys] at h }
  right := fun _ _ => rfl

theorem brokenIo_ok : IoOk demoSys brokenIo where
  nonempty := fun _ b h => (pairs_spec b).1 (List.mem_of_mem_take h)
  start := fun _ b => by
    obtain ⟨r, hr⟩ := List.take_prefix 3 (pairs b)
    refine ⟨r.flatten, ?_⟩
    rw [show (brokenIo.reads _ b).1 = (pairs b).take 3 from rfl, ← List.flatten_append, hr, (pairs_spec b).2]
  whole := fun _ b h => by
    have h : (pairs b).length ≤ 3 := by simpa [brokenIo] using h
    rw [show (brokenIo.reads _ b).1 = (pairs b).take 3 from rfl, List.take_of_length_le h, (pairs_spec b).2]
  decoder := demoIo_ok.1.decoder
  lookup := demoIo_ok.1.lookup

/-- Files that are read by two bytes are standardized as files that are read at once. -/
example :
    let w := demoWorld [("f", "a;b\r\n1;2\n")]
    let r := handlePathC demoSys demoIo { paths := ["f".toList], inPlace := true } "f".toList none none w
    let r0 := handlePath demoSys { paths := ["f".toList], inPlace := true } "f".toList none none w
    r.1 = .ok 2 ∧ r0.1 = .ok 2 ∧ r.2.text demoSys "f".toList none = some "a,b\r\n1,2\r\n".toList ∧
    r0.2.text demoSys "f".toList none = some "a,b\r\n1,2\r\n".toList ∧ r.2.files "tmp".toList = none := by decide +kernel

/-- A read fails after the dialect has been detected on the first characters: the file is unchanged; a temporary file with
the rows that were read is left behind. -/
example :
    let w := demoWorld [("f", "a;b\r\n1;2\n")]
    let r := handlePathC demoSys brokenIo { paths := ["f".toList], inPlace := true, numChars := some 5 } "f".toList none none w
    r.1 = .error .osError ∧ r.2.files "f".toList = w.files "f".toList ∧
    r.2.text demoSys "tmp".toList none = some "a,b\r\n".toList := by decide +kernel

/-- The same with an output file, which then has the beginning of the output. -/
example :
    let w := demoWorld [("f", "a;b\r\n1;2\n")]
    let r := handlePathC demoSys brokenIo { paths := ["f".toList], outputs := ["o".toList], numChars := some 5 } "f".toList
      (some "o".toList) none w
    r.1 = .error .osError ∧ r.2.text demoSys "o".toList none = some "a,b\r\n".toList := by decide +kernel

/-- A byte that cannot be decoded comes after the part for detection: the row before it is given. -/
example :
    let w : World := { demoWorld [] with files := fun _ => some [97, 44, 98, 10, 99, 44, 100, 10, 200, 44, 97] }
    (streamTableC demoSys demoIo "f".toList (some (.name "excel")) none none w).1 =
      .ok ([["a".toList, "b".toList], ["c".toList, "d".toList]], some .unicodeError) ∧
    (streamTable demoSys "f".toList (some (.name "excel")) none none w).1 = .error .unicodeError := by decide +kernel

/-- `write_table` with a buffer. -/
example :
    let r := writeTableC demoSys demoIo ⟨[["a".toList, "b,".toList], ["1".toList, "2".toList]], true⟩ "f".toList
      (.name "excel") false none (demoWorld [])
    r.1 = .ok () ∧ r.2.text demoSys "f".toList none = some "a,\"b,\"\r\n1,2\r\n".toList := by decide +kernel

/-- A file that can be opened but whose encoding is not known: every function that reads it raises `LookupError`, whatever is in
the file, and the files are as before. -/
theorem C124_lookup (sys : Sys) (io : Io) (p : Path) (dialect : Option DialectArg) (enc : Str) (hne : enc ≠ [])
    (n : Option Int) (m : Str) (skip : Bool) (w : World) (b : Bytes) (hf : sys.fault w.ticks = none)
    (hb : w.files p = some b) (hd : io.decoder (some enc) = none) :
    (streamTableC sys io p dialect (some enc) n w).1 = .error .lookupError ∧
    (readTableC sys io p dialect (some enc) n w).1 = .error .lookupError ∧
    (detectDialectC sys io p n (some enc) m skip w).1 = .error .lookupError ∧
    (streamTableC sys io p dialect (some enc) n w).2.files = w.files ∧
    (readTableC sys io p dialect (some enc) n w).2.files = w.files ∧
    (detectDialectC sys io p n (some enc) m skip w).2.files = w.files := by
  have h : openStream sys io p (some enc) w = (.error .lookupError, w.next) := by
    unfold openStream
    have ho : openRead sys p w = (.ok b, w.next) := by
      simp [openRead, tick, hf, hb, World.next, bind]
    rw [ho]; simp [hd]
  have hs : streamTableC sys io p dialect (some enc) n w = (.error .lookupError, w.next) := by
    simp [streamTableC, chooseEncoding, bind, pure, h]
  have hr : readTableC sys io p dialect (some enc) n w = (.error .lookupError, w.next) := by
    simp [readTableC, listOf, bind, hs]
  have ht : detectDialectC sys io p n (some enc) m skip w = (.error .lookupError, w.next) := by
    cases enc with
    | nil => exact absurd rfl hne
    | cons c cs => simp [detectDialectC, truthy, bind, pure, h]
  rw [hs, hr, ht]
  exact ⟨rfl, rfl, rfl, rfl, rfl, rfl⟩

/-- An encoding with this name does not exist. -/
example :
    let io : Io := { demoIo with decoder := fun e => if e = some "nope".toList then none else some asciiDecoder }
    let w := demoWorld [("f", "a;b\r\n1;2\n")]
    (readTableC demoSys io "f".toList none (some "nope".toList) none w).1 = .error .lookupError ∧
    (readTableC demoSys io "f".toList none (some "ascii".toList) none w).1 =
      .ok [["a".toList, "b".toList], ["1".toList, "2".toList]] := by decide +kernel

end Clever.Props
