import Verif.Proofs.Chunked

/-!
# The standardize command with chunks and buffers: helper lemmas
-/

namespace Clever

open Spec Props

theorem mkReader_simple_valid {src : Source} {d : SimpleDialect} {r : Reader}
    (h : mkReader src (.simple d) = .ok r) : d.validate = .ok () := by
  simp only [mkReader, makeSimpleDialect, baseDialect, setParams_none, bind, Except.bind, pure, Except.pure] at h
  cases hv : d.validate with
  | error e => rw [hv] at h; simp at h
  | ok u => rfl

theorem writeGen_prefix (wd : WDialect) : ∀ {a b : List (List Str)}, a <+: b → (wd.writeGen a).1 <+: (wd.writeGen b).1
  | [], _, _ => List.nil_prefix
  | r :: a, b, h => by
    cases b with
    | nil => simp at h
    | cons r' b =>
      obtain ⟨rfl, h'⟩ := List.cons_prefix_cons.mp h
      simp only [WDialect.writeGen]
      cases wd.writeRow r with
      | error e => exact List.prefix_rfl
      | ok x => exact List.cons_prefix_cons.mpr ⟨rfl, writeGen_prefix wd h'⟩

/-- The rows that a file gives. -/
theorem streamRows {sys : Sys} {io : Io} (hio : IoOk sys io) {p : Path} {e : Option Str} {w w' : World} {f : TextIn}
    (h : openStream sys io p e w = (.ok f, w')) (limit : Int) (d : SimpleDialect) :
    ((f.passOn (parseData limit d mkPlain f.items)).2 = none → ∃ text, w.text sys p e = some text ∧
      f.passOn (parseData limit d mkPlain f.items) = parseString limit d text) ∧
    (∀ text, w.text sys p e = some text →
      f.passOn (parseData limit d mkPlain f.items) = parseString limit d text ∨
      (f.passOn (parseData limit d mkPlain f.items)).2 ≠ none ∧
      (f.passOn (parseData limit d mkPlain f.items)).1 <+: (parseString limit d text).1) := by
  have hf := openStream_fresh hio h
  rcases (C123_cases f).1 with ⟨t, hr⟩ | ⟨t, x, hb⟩
  · have ht := openStream_readable hio h hr
    obtain ⟨h1, h2⟩ := items_readable hf hr
    rw [h2, h1]
    refine ⟨fun _ => ⟨t, ht, rfl⟩, fun text h' => ?_⟩
    rw [ht] at h'
    cases h'
    exact .inl rfl
  · obtain ⟨h1, h2⟩ := passOn_breaks hf hb limit d
    refine ⟨fun h => absurd h h1, fun text h' => ?_⟩
    obtain ⟨u, rfl⟩ := (text_readable hio h h').2 _ _ hb
    rcases h2 u with h2 | ⟨h2, h3⟩
    · exact .inl h2
    · exact .inr ⟨h1, h3⟩

theorem writeToStreamC_inv {sys : Sys} {io : Io} (hio : IoOk sys io) {t : Bool} {p : Path} {d : SimpleDialect}
    {enc : Option Str} {w w' : World} {g : Gen Str} (h : writeToStreamC sys io t p d enc w = (.ok g, w')) :
    w' = w.next ∧ d.validate = .ok () ∧
      (g.2 = none → ∃ text rows, w.text sys p enc = some text ∧ parseString w.limit d text = (rows, none) ∧
        g.1.flatten = excelText (shown t rows)) ∧
      (∀ text rows, w.text sys p enc = some text → parseString w.limit d text = (rows, none) →
        ∃ G, G.flatten = excelText (shown t rows) ∧ g.1 <+: G) := by
  unfold writeToStreamC at h
  obtain ⟨f, w1, h1, h⟩ := bind_inv h
  obtain ⟨k1, k2⟩ := streamRows hio h1 w.limit d
  have hw1 := (openStream_inv h1).1
  subst hw1
  obtain ⟨r, w2, h2, h⟩ := bind_inv h
  obtain ⟨hr, rfl⟩ := liftExcept_inv h2
  have hv := mkReader_simple_valid hr
  have hr' := mkReader_simple_inv hr
  subst hr'
  obtain ⟨l, w3, h3, h⟩ := bind_inv h
  rw [getLimit_apply] at h3
  simp only [Prod.mk.injEq, Except.ok.injEq] at h3
  obtain ⟨rfl, rfl⟩ := h3
  have hall : (⟨.stream f.items, d, 0, none⟩ : Reader).readAll w.next.limit = parseData w.limit d mkPlain f.items :=
    Clever.readAll_eq _ _ _ _ _
  simp only [hall] at h
  cases t with
  | true =>
    simp only [if_true] at h
    obtain ⟨rows, w4, h4, h⟩ := bind_inv h
    obtain ⟨hrows, rfl⟩ := liftExcept_inv h4
    obtain ⟨wd, w5, h5, h⟩ := bind_inv h
    obtain ⟨hwd, rfl⟩ := liftExcept_inv h5
    rw [mkWriter_excel] at hwd
    cases hwd
    simp only [act_pure, Prod.mk.injEq, Except.ok.injEq] at h
    have hg : f.passOn (parseData w.limit d mkPlain f.items) = (rows, none) := by
      rcases hg : f.passOn (parseData w.limit d mkPlain f.items) with ⟨rows', _ | e⟩
      · rw [hg] at hrows; simp [Gen.toList] at hrows; rw [hrows]
      · rw [hg] at hrows; simp [Gen.toList] at hrows
    obtain ⟨text, ht, hp⟩ := k1 (by rw [hg])
    have hfl : g.1.flatten = excelText (shown true rows) := by
      rw [← h.1, (excel_writeGen _).1]
      rfl
    refine ⟨h.2.symm, hv, fun _ => ⟨text, rows, ht, by rw [← hp, hg], hfl⟩, fun text' rows' ht' hp' => ?_⟩
    rw [ht] at ht'
    cases ht'
    rw [← hp, hg] at hp'
    cases hp'
    exact ⟨g.1, hfl, List.prefix_rfl⟩
  | false =>
    simp only [Bool.false_eq_true, if_false] at h
    obtain ⟨wd, w5, h5, h⟩ := bind_inv h
    obtain ⟨hwd, rfl⟩ := liftExcept_inv h5
    rw [mkWriter_excel] at hwd
    cases hwd
    simp only [act_pure, Prod.mk.injEq, Except.ok.injEq] at h
    refine ⟨h.2.symm, hv, fun hn => ?_, fun text rows ht hp => ?_⟩
    · rw [← h.1, (excel_copyGen _).2] at hn
      obtain ⟨text, ht, hp⟩ := k1 hn
      refine ⟨text, (parseString w.limit d text).1, ht, ?_, ?_⟩
      · rw [hp] at hn
        rw [← hn]
      · rw [← h.1, (excel_copyGen _).1, hp]
        rfl
    · refine ⟨(excelWriter.writeGen rows).1, (excel_writeGen _).1, ?_⟩
      rw [← h.1]
      refine writeGen_prefix _ ?_
      rcases k2 text ht with k | ⟨-, k⟩
      · rw [k, hp]
      · rw [hp] at k
        exact k

/-! ## Only some files change -/

theorem only_openStream (P : Path → Prop) (sys : Sys) (io : Io) (p : Path) (e : Option Str) : Only P (openStream sys io p e) := by
  intro w q hq
  unfold openStream
  have := only_openRead P sys p w q hq
  rcases ho : openRead sys p w with ⟨x | b, w1⟩
  · rw [ho] at this
    exact this
  · rw [ho] at this
    simp only
    split <;> exact this

theorem only_writeToStreamC (P : Path → Prop) (sys : Sys) (io : Io) (t : Bool) (p : Path) (d : SimpleDialect)
    (enc : Option Str) : Only P (writeToStreamC sys io t p d enc) := by
  unfold writeToStreamC
  refine (only_openStream _ sys io p enc).bind fun text => (only_liftExcept _ _).bind fun r =>
    (only_getLimit _).bind fun l => ?_
  simp only []
  split
  · exact (only_liftExcept _ _).bind fun _ => (only_liftExcept _ _).bind fun _ => only_pure _ _
  · exact (only_liftExcept _ _).bind fun _ => only_pure _ _

theorem detectDialectC_eq (sys : Sys) (io : Io) (p : Path) (n : Option Int) (e : Option Str) (m : Str) (skip : Bool) :
    detectDialectC sys io p n e m skip = (stdChoose sys p e >>= fun e => openStream sys io p e >>= fun f =>
      liftExcept (f.readSome n) >>= fun data => runDetector sys data m skip) := by
  unfold detectDialectC stdChoose
  cases truthy e <;> rfl

theorem only_detectDialectC (P : Path → Prop) (sys : Sys) (io : Io) (p : Path) (n : Option Int) (e : Option Str) (m : Str)
    (skip : Bool) : Only P (detectDialectC sys io p n e m skip) := by
  rw [detectDialectC_eq]
  exact (only_stdChoose _ _ _ _).bind fun _ => (only_openStream _ _ _ _ _).bind fun _ => (only_liftExcept _ _).bind fun _ =>
    only_runDetector _ _ _ _ _

/-! ## Nothing is printed -/

/-- Nothing is printed. -/
def Silent {α : Type} (m : Act α) : Prop := ∀ w, (m w).2.stdout = w.stdout

theorem Silent.bind {α β : Type} {m : Act α} {f : α → Act β} (hm : Silent m) (hf : ∀ a, Silent (f a)) : Silent (m >>= f) := by
  intro w
  rw [act_bind]
  have := hm w
  rcases h : m w with ⟨e | a, w1⟩
  · rw [h] at this; exact this
  · rw [h] at this; exact (hf a w1).trans this

theorem silent_pure {α : Type} (a : α) : Silent (pure a : Act α) := fun _ => rfl
theorem silent_lift {α : Type} (x : Except PyExc α) : Silent (liftExcept x) := fun _ => rfl
theorem silent_limit : Silent getLimit := fun _ => rfl

theorem silent_openRead (sys : Sys) (p : Path) : Silent (openRead sys p) := by
  intro w
  rw [openRead_apply]
  split
  · rfl
  · split <;> rfl

theorem silent_openStream (sys : Sys) (io : Io) (p : Path) (e : Option Str) : Silent (openStream sys io p e) := by
  intro w
  unfold openStream
  have := silent_openRead sys p w
  rcases ho : openRead sys p w with ⟨x | b, w1⟩
  · rw [ho] at this
    exact this
  · rw [ho] at this
    simp only
    split <;> exact this

theorem writeToStreamC_stdout (sys : Sys) (io : Io) (t : Bool) (p : Path) (d : SimpleDialect)
    (enc : Option Str) : Silent (writeToStreamC sys io t p d enc) := by
  unfold writeToStreamC
  refine (silent_openStream sys io p enc).bind fun text => (silent_lift _).bind fun r => silent_limit.bind fun l => ?_
  simp only []
  split
  · exact (silent_lift _).bind fun _ => (silent_lift _).bind fun _ => silent_pure _
  · exact (silent_lift _).bind fun _ => silent_pure _

theorem stdChoose_stdout (sys : Sys) (p : Path) (enc : Option Str) : Silent (stdChoose sys p enc) := by
  unfold stdChoose
  cases truthy enc
  · exact (silent_openRead _ _).bind fun _ => silent_pure _
  · exact silent_pure _

theorem detectDialectC_stdout (sys : Sys) (io : Io) (p : Path) (n : Option Int) (e : Option Str) :
    Silent (detectDialectC sys io p n e) := by
  rw [detectDialectC_eq]
  exact (stdChoose_stdout _ _ _).bind fun _ => (silent_openStream _ _ _ _).bind fun _ => (silent_lift _).bind fun _ => fun _ => rfl

/-! ## In place -/

theorem inPlaceC_inv {sys : Sys} {io : Io} (hio : IoOk sys io) {t : Bool} {p : Path} {d : SimpleDialect}
    {enc target : Option Str} {w w' : World}
    {c : Nat} {old : Bytes} (ho : w.files p = some old)
    (h : inPlaceC sys io t p d enc target w = (.ok c, w')) :
    d.validate = .ok () ∧ w.files (sys.tempName w.files) = none ∧
    ∃ text rows b, w.text sys p enc = some text ∧ parseString w.limit d text = (rows, none) ∧
      encoded sys target (excelText (shown t rows)) = some b ∧ w'.stdout = w.stdout ∧ w'.limit = w.limit ∧
      (c = 0 ∧ sys.sha1 old = sys.sha1 b ∧ (∀ q, w'.files q = w.files q) ∨
       c = 2 ∧ sys.sha1 old ≠ sys.sha1 b ∧ w'.files p = some b ∧ (∀ q, q ≠ p → w'.files q = w.files q)) := by
  unfold inPlaceC at h
  obtain ⟨tmp, w1, h1, h⟩ := bind_inv h
  obtain ⟨htmp, hfresh, rfl⟩ := mkstemp_inv h1
  have hpt : p ≠ tmp := by rintro rfl; rw [ho] at hfresh; simp at hfresh
  obtain ⟨cd, w2, h2, h⟩ := bind_inv h
  obtain ⟨hcd, rfl⟩ := getCodec_inv h2
  obtain ⟨g, w3, h3, h⟩ := bind_inv h
  obtain ⟨rfl, hv, hg, -⟩ := writeToStreamC_inv hio h3
  obtain ⟨u, w4, h4, h⟩ := bind_inv h
  obtain ⟨h4only, h4l, h4o, -, h4ok, -⟩ := writeThenClose_spec (by simp) h4
  obtain ⟨hn, s, b, hb, h4f⟩ := h4ok u rfl
  obtain ⟨text, rows, ht, hrows, hflat⟩ := hg hn
  rw [text_files (w := w) (by rw [World.set_other _ _ hpt]; rfl)] at ht
  rw [hflat] at hb
  have hother : ∀ q, q ≠ tmp → w4.files q = w.files q := by
    intro q hq
    rw [h4only q hq, World.next_files, World.set_other _ _ hq]
    rfl
  obtain ⟨x, w5, h5, h⟩ := bind_inv h
  obtain ⟨b1, hb1, rfl, rfl⟩ := sha1sum_inv h5
  rw [hother p hpt, ho] at hb1
  cases hb1
  obtain ⟨y, w6, h6, h⟩ := bind_inv h
  obtain ⟨b2, hb2, rfl, rfl⟩ := sha1sum_inv h6
  rw [World.next_files, h4f] at hb2
  cases hb2
  rw [sha1Input_eq, sha1Input_eq] at h
  refine ⟨hv, by rw [← htmp]; exact hfresh, text, rows, b, ht, hrows, encoded_of hcd hb, ?_⟩
  split at h
  · rename_i heq
    obtain ⟨_, w7, h7, h⟩ := bind_inv h
    have := unlink_inv h7
    subst this
    simp only [act_pure, Prod.mk.injEq, Except.ok.injEq] at h
    rw [← h.2]
    refine ⟨h4o, h4l, .inl ⟨h.1.symm, heq, ?_⟩⟩
    intro q
    by_cases hq : q = tmp
    · subst hq; rw [World.set_self, hfresh]
    · rw [World.set_other _ _ hq]; exact hother q hq
  · rename_i hne
    obtain ⟨_, w7, h7, h⟩ := bind_inv h
    obtain ⟨hm1, hm2, hm3, hm4⟩ := move_inv (Ne.symm hpt) (b := b) (by simpa using h4f) h7
    have hm5 := only_move sys tmp p w4.next.next
    rw [h7] at hm5
    simp only [act_pure, Prod.mk.injEq, Except.ok.injEq] at h
    rw [← h.2]
    refine ⟨by rw [hm4]; exact h4o, by rw [hm3]; exact h4l, .inr ⟨h.1.symm, hne, hm1, ?_⟩⟩
    intro q hq
    by_cases hqt : q = tmp
    · subst hqt; rw [hm2, hfresh]
    · rw [hm5 q (by simp [hq, hqt])]; exact hother q hqt

theorem inPlaceC_error {sys : Sys} {io : Io} (hio : IoOk sys io) {t : Bool} {p : Path} {d : SimpleDialect}
    {enc target : Option Str} {w w' : World} {e : PyExc} {old : Bytes} (ho : w.files p = some old)
    (h : inPlaceC sys io t p d enc target w = (.error e, w')) :
    (∀ q, q ≠ p → q ≠ sys.tempName w.files → w'.files q = w.files q) ∧
    (w'.files p = w.files p ∨
      sys.crossDevice = true ∧ ∃ text rows b, w.text sys p enc = some text ∧
        parseString w.limit d text = (rows, none) ∧
        encoded sys target (excelText (shown t rows)) = some b ∧ w'.files (sys.tempName w.files) = some b) := by
  unfold inPlaceC at h
  rcases bind_error_inv h with h | ⟨tmp, w1, h1, h⟩
  · have : w'.files = w.files := by
      rw [mkstemp_apply] at h
      cases hf : sys.fault w.ticks with
      | some k => rw [hf] at h; simp only [Prod.mk.injEq] at h; rw [← h.2]; rfl
      | none =>
        rw [hf] at h
        simp only at h
        split at h
        · simp at h
        · simp only [Prod.mk.injEq] at h; rw [← h.2]; rfl
    rw [this]
    exact ⟨fun _ _ _ => rfl, .inl rfl⟩
  obtain ⟨htmp, hfresh, rfl⟩ := mkstemp_inv h1
  rw [← htmp]
  have hpt : p ≠ tmp := by rintro rfl; rw [ho] at hfresh; simp at hfresh
  have key : ∀ w'' : World, (∀ q, q ≠ tmp → w''.files q = w.files q) →
      (∀ q, q ≠ p → q ≠ tmp → w''.files q = w.files q) ∧ (w''.files p = w.files p ∨
      sys.crossDevice = true ∧ ∃ text rows b, w.text sys p enc = some text ∧
        parseString w.limit d text = (rows, none) ∧
        encoded sys target (excelText (shown t rows)) = some b ∧ w''.files tmp = some b) :=
    fun w'' hw => ⟨fun q _ hq => hw q hq, .inl (hw p hpt)⟩
  have h0 : ∀ q, q ≠ tmp → (w.next.set tmp (some [])).files q = w.files q := by
    intro q hq; rw [World.set_other _ _ hq]; rfl
  rcases bind_error_inv h with h | ⟨cd, w2, h2, h⟩
  · refine key w' fun q hq => ?_
    have := only_getCodec (· = tmp) sys target (w.next.set tmp (some [])) q hq
    rw [h] at this
    rw [this, h0 q hq]
  obtain ⟨hcd, rfl⟩ := getCodec_inv h2
  rcases bind_error_inv h with h | ⟨g, w3, h3, h⟩
  · refine key w' fun q hq => ?_
    have := only_writeToStreamC (· = tmp) sys io t p d enc (w.next.set tmp (some [])) q hq
    rw [h] at this
    rw [this, h0 q hq]
  obtain ⟨rfl, -, hg, -⟩ := writeToStreamC_inv hio h3
  rcases bind_error_inv h with h | ⟨u, w4, h4, h⟩
  · refine key w' fun q hq => ?_
    rw [(writeThenClose_spec (by simp) h).1 q hq, World.next_files, h0 q hq]
  obtain ⟨h4only, -, -, -, h4ok, -⟩ := writeThenClose_spec (by simp) h4
  obtain ⟨hn, s, b, hb, h4f⟩ := h4ok u rfl
  obtain ⟨text, rows, ht, hrows, hflat⟩ := hg hn
  rw [text_files (w := w) (by rw [World.set_other _ _ hpt]; rfl)] at ht
  rw [hflat] at hb
  have hother : ∀ q, q ≠ tmp → w4.files q = w.files q := by
    intro q hq
    rw [h4only q hq, World.next_files, h0 q hq]
  rcases bind_error_inv h with h | ⟨x, w5, h5, h⟩
  · refine key w' fun q hq => ?_
    have := only_sha1sum (· = tmp) sys p w4 q hq
    rw [h] at this
    rw [this, hother q hq]
  obtain ⟨-, -, -, rfl⟩ := sha1sum_inv h5
  rcases bind_error_inv h with h | ⟨y, w6, h6, h⟩
  · refine key w' fun q hq => ?_
    have := only_sha1sum (· = tmp) sys tmp w4.next q hq
    rw [h] at this
    rw [this, World.next_files, hother q hq]
  obtain ⟨-, -, -, rfl⟩ := sha1sum_inv h6
  split at h
  · rcases bind_error_inv h with h | ⟨_, w7, h7, h⟩
    · refine key w' fun q hq => ?_
      have := only_unlink sys tmp w4.next.next q hq
      rw [h] at this
      rw [this, World.next_files, World.next_files, hother q hq]
    · simp at h
  · rcases bind_error_inv h with h | ⟨_, w7, h7, h⟩
    · constructor
      · intro q hq hqt
        have := only_move sys tmp p w4.next.next q (by simp [hq, hqt])
        rw [h] at this
        rw [this, World.next_files, World.next_files, hother q hqt]
      · rcases move_error (Ne.symm hpt) h with ⟨hm, -⟩ | ⟨hc, hm⟩
        · left
          rw [hm, World.next_files, World.next_files, hother p hpt]
        · right
          refine ⟨hc, text, rows, b, ht, hrows, encoded_of hcd hb, ?_⟩
          rw [hm]
          exact h4f
    · simp at h

/-! ## To a file or the standard output -/

theorem toFileC_inv {sys : Sys} {io : Io} (hio : IoOk sys io) {t : Bool} {p o : Path} (hpo : p ≠ o) {d : SimpleDialect}
    {enc target : Option Str} {w w' : World} {c : Nat} (h : toFileC sys io t p o d enc target w = (.ok c, w')) :
    d.validate = .ok () ∧
    ∃ text rows b, w.text sys p enc = some text ∧ parseString w.limit d text = (rows, none) ∧
      encoded sys target (excelText (shown t rows)) = some b ∧ w'.stdout = w.stdout ∧ w'.limit = w.limit ∧
      c = 0 ∧ w'.files o = some b ∧ (∀ q, q ≠ o → w'.files q = w.files q) := by
  unfold toFileC at h
  obtain ⟨cd, w1, h1, h⟩ := bind_inv h
  unfold openTextWrite at h1
  obtain ⟨_, w2, h2, h1⟩ := bind_inv h1
  have := openWrite_inv h2
  subst this
  obtain ⟨hcd, rfl⟩ := getCodec_inv h1
  obtain ⟨g, w3, h3, h⟩ := bind_inv h
  obtain ⟨rfl, hv, hg, -⟩ := writeToStreamC_inv hio h3
  obtain ⟨u, w4, h4, h⟩ := bind_inv h
  obtain ⟨h4only, h4l, h4o, -, h4ok, -⟩ := writeAndClose_spec (by simp) h4
  obtain ⟨hn, s, b, hb, h4f⟩ := h4ok u rfl
  obtain ⟨text, rows, ht, hrows, hflat⟩ := hg hn
  rw [text_files (w := w) (by rw [World.set_other _ _ hpo]; rfl)] at ht
  rw [hflat] at hb
  simp only [act_pure, Prod.mk.injEq, Except.ok.injEq] at h
  rw [← h.2]
  refine ⟨hv, text, rows, b, ht, hrows, encoded_of hcd hb, h4o, h4l, h.1.symm, h4f, ?_⟩
  intro q hq
  rw [h4only q hq, World.next_files, World.set_other _ _ hq]
  rfl

theorem toStdoutC_inv {sys : Sys} {io : Io} (hio : IoOk sys io) {t : Bool} {p : Path} {d : SimpleDialect} {enc : Option Str}
    {w w' : World} {c : Nat} (h : toStdoutC sys io t p d enc w = (.ok c, w')) :
    d.validate = .ok () ∧
    ∃ text rows, w.text sys p enc = some text ∧ parseString w.limit d text = (rows, none) ∧
      w'.stdout = w.stdout ++ excelText (shown t rows) ∧ w'.limit = w.limit ∧ c = 0 ∧ w'.files = w.files := by
  unfold toStdoutC at h
  obtain ⟨g, w3, h3, h⟩ := bind_inv h
  obtain ⟨rfl, hv, hg, -⟩ := writeToStreamC_inv hio h3
  obtain ⟨pieces, w4, h4, h⟩ := bind_inv h
  obtain ⟨hp, rfl⟩ := liftExcept_inv h4
  have hn : g.2 = none ∧ g.1 = pieces := by
    rcases g with ⟨a, _ | e⟩
    · simp [Gen.toList] at hp; exact ⟨rfl, hp⟩
    · simp [Gen.toList] at hp
  obtain ⟨text, rows, ht, hrows, hflat⟩ := hg hn.1
  obtain ⟨_, w5, h5, h⟩ := bind_inv h
  simp only [printText, Prod.mk.injEq] at h5
  simp only [act_pure, Prod.mk.injEq, Except.ok.injEq] at h
  rw [← h.2, ← h5.2]
  refine ⟨hv, text, rows, ht, hrows, ?_, rfl, h.1.symm, rfl⟩
  rw [← hflat, hn.2]
  rfl

theorem toFileC_error {sys : Sys} {io : Io} (hio : IoOk sys io) {t : Bool} {p o : Path} (hpo : p ≠ o) {d : SimpleDialect}
    {enc target : Option Str} {w w' : World} {e : PyExc} (h : toFileC sys io t p o d enc target w = (.error e, w')) :
    (∀ q, q ≠ o → w'.files q = w.files q) ∧ w'.stdout = w.stdout ∧
    ∀ text rows b, w.text sys p enc = some text → parseString w.limit d text = (rows, none) →
      encoded sys target (excelText (shown t rows)) = some b →
      w'.files o = w.files o ∨ ∃ cur, w'.files o = some cur ∧ cur <+: b := by
  unfold toFileC at h
  rcases bind_error_inv h with h | ⟨cd, w1, h1, h⟩
  · unfold openTextWrite at h
    rcases bind_error_inv h with h | ⟨_, w2, h2, h⟩
    · rw [openWrite_apply] at h
      split at h
      · simp only [Prod.mk.injEq] at h
        rw [← h.2]
        exact ⟨fun _ _ => rfl, rfl, fun _ _ _ _ _ _ => .inl rfl⟩
      · simp at h
    · have := openWrite_inv h2
      subst this
      rw [getCodec_apply] at h
      have hw : w' = w.next.set o (some []) := by
        split at h
        · simp only [Prod.mk.injEq] at h; exact h.2.symm
        · simp at h
      subst hw
      refine ⟨fun q hq => by rw [World.set_other _ _ hq]; rfl, rfl, fun _ _ _ _ _ _ => .inr ⟨[], by simp, List.nil_prefix⟩⟩
  unfold openTextWrite at h1
  obtain ⟨_, w2, h2, h1⟩ := bind_inv h1
  have := openWrite_inv h2
  subst this
  obtain ⟨hcd, rfl⟩ := getCodec_inv h1
  have h0 : ∀ q, q ≠ o → (w.next.set o (some [])).files q = w.files q := by
    intro q hq; rw [World.set_other _ _ hq]; rfl
  rcases bind_error_inv h with h | ⟨g, w3, h3, h⟩
  · have h1 := only_writeToStreamC (fun _ => False) sys io t p d enc (w.next.set o (some []))
    have h2 := writeToStreamC_stdout sys io t p d enc (w.next.set o (some []))
    rw [h] at h1 h2
    refine ⟨fun q hq => by rw [h1 q id, h0 q hq], h2, fun _ _ _ _ _ _ => .inr ⟨[], ?_, List.nil_prefix⟩⟩
    rw [h1 o id, World.set_self]
  obtain ⟨rfl, -, -, hg⟩ := writeToStreamC_inv hio h3
  rcases bind_error_inv h with h | ⟨u, w4, h4, h⟩
  · obtain ⟨k1, k2, k3, ⟨cur, k4, k, s, b', k5, k6⟩, -, -⟩ := writeAndClose_spec (by simp) h
    refine ⟨fun q hq => by rw [k1 q hq, World.next_files, h0 q hq], k3, fun text rows b ht hrows hb => .inr ⟨cur, k4, ?_⟩⟩
    obtain ⟨c', s', hc', hb⟩ := encoded_some hb
    rw [hcd] at hc'
    cases hc'
    obtain ⟨G, hG, hpre⟩ := hg text rows (by rw [text_files (w := w) (by rw [World.set_other _ _ hpo]; rfl)]; exact ht) hrows
    rw [← hG] at hb
    obtain ⟨r, hr⟩ := (List.take_prefix k g.1).trans hpre
    rw [← hr, List.flatten_append, encodeFrom_append, k5, Option.bind_some] at hb
    cases hx : cd.encodeFrom s r.flatten with
    | none => simp [hx] at hb
    | some y =>
      simp [hx] at hb
      rw [← hb.2]
      exact k6.trans (List.prefix_append _ _)
  · simp at h

theorem toStdoutC_error {sys : Sys} {io : Io} {t : Bool} {p : Path} {d : SimpleDialect}
    {enc : Option Str} {w w' : World} {e : PyExc} (h : toStdoutC sys io t p d enc w = (.error e, w')) :
    w'.files = w.files ∧ w'.stdout = w.stdout := by
  unfold toStdoutC at h
  rcases bind_error_inv h with h | ⟨g, w3, h3, h⟩
  · have h1 := only_writeToStreamC (fun _ => False) sys io t p d enc w
    have h2 := writeToStreamC_stdout sys io t p d enc w
    rw [h] at h1 h2
    exact ⟨funext fun q => h1 q id, h2⟩
  · have h1 := only_writeToStreamC (fun _ => False) sys io t p d enc w
    have h2 := writeToStreamC_stdout sys io t p d enc w
    rw [h3] at h1 h2
    rcases bind_error_inv h with h | ⟨x, w4, h4, h⟩
    · simp only [liftExcept_apply, Prod.mk.injEq] at h
      rw [← h.2]
      exact ⟨funext fun q => h1 q id, h2⟩
    · simp [act_bind, printText] at h

/-! ## The command -/

/-- The last step of `handle_path`. -/
def deliverC (sys : Sys) (io : Io) (a : StdArgs) (p : Path) (output : Option Path) (d : SimpleDialect)
    (encoding target : Option Str) : Act Nat :=
  if a.inPlace then inPlaceC sys io a.transpose p d encoding target
  else
    match output with
    | none => toStdoutC sys io a.transpose p d encoding
    | some o => toFileC sys io a.transpose p o d encoding target

theorem handlePathC_eq (sys : Sys) (io : Io) (a : StdArgs) (p : Path) (output : Option Path) (encoding : Option Str) :
    handlePathC sys io a p output encoding = (stdChoose sys p encoding >>= fun encoding =>
      detectDialectC sys io p a.numChars encoding >>= fun r =>
      match r with
      | none => pure 1
      | some d => deliverC sys io a p output d encoding (stdTarget a encoding)) := by
  unfold handlePathC stdChoose
  cases truthy encoding <;> rfl

theorem stdEncoding_files {sys : Sys} {w w0 : World} {p : Path} (hf : w0.files = w.files) (e : Option Str) :
    w0.stdEncoding sys p e = w.stdEncoding sys p e := by
  unfold World.stdEncoding World.guess
  rw [hf]

theorem detectDialectC_inv {sys : Sys} {io : Io} (hio : IoOk sys io) {p : Path} {n : Option Int} {e : Option Str} {w w' : World}
    {r : Option SimpleDialect} (h : detectDialectC sys io p n e "auto".toList true w = (.ok r, w')) :
    ∃ old data, w.files p = some old ∧
      (∀ text, w.text sys p (w.stdEncoding sys p e) = some text → data = Spec.detectionPart text n) ∧
      (detect sys.env sys.order w.limit data).result = .ok r ∧
      w'.files = w.files ∧ w'.limit = w.limit ∧ w'.stdout = w.stdout := by
  rw [detectDialectC_eq] at h
  obtain ⟨e', w1, h1, h⟩ := bind_inv h
  obtain ⟨rfl, hf, hl, hs⟩ := stdChoose_inv h1
  obtain ⟨f, w2, h2, h⟩ := bind_inv h
  obtain ⟨rfl, b, -, hb, -, -⟩ := openStream_inv h2
  obtain ⟨data, w3, h3, h⟩ := bind_inv h
  obtain ⟨hd, rfl⟩ := liftExcept_inv h3
  rw [runDetector_apply] at h
  simp only [Prod.mk.injEq, World.next_limit, hl] at h
  refine ⟨b, data, by rw [← hf]; exact hb, fun text ht => ?_, h.1, ?_⟩
  · rw [← text_files (w := w) (w' := w1) (by rw [hf])] at ht
    rw [readSome_text hio h2 ht hd, readSome_eq]
  · rw [← h.2]
    exact ⟨hf, C37_restored_partial _ _ _ _ _ _ _ _ h.1, hs⟩

theorem handlePathC_inv {sys : Sys} {io : Io} (hio : IoOk sys io) {a : StdArgs} {p : Path} {output : Option Path}
    {enc : Option Str} {w w' : World} {c : Nat} (h : handlePathC sys io a p output enc w = (.ok c, w')) :
    ∃ old data r w1, w.files p = some old ∧
      (∀ text, w.text sys p (w.stdEncoding sys p enc) = some text → data = Spec.detectionPart text a.numChars) ∧
      (detect sys.env sys.order w.limit data).result = .ok r ∧
      w1.files = w.files ∧ w1.limit = w.limit ∧ w1.stdout = w.stdout ∧
      (r = none ∧ c = 1 ∧ w' = w1 ∨
       ∃ d, r = some d ∧ deliverC sys io a p output d (w.stdEncoding sys p enc)
         (stdTarget a (w.stdEncoding sys p enc)) w1 = (.ok c, w')) := by
  rw [handlePathC_eq] at h
  obtain ⟨e, w0, h0, h⟩ := bind_inv h
  obtain ⟨rfl, hf, hl, hs⟩ := stdChoose_inv h0
  obtain ⟨r, w1, h1, h⟩ := bind_inv h
  obtain ⟨old, data, ho, ht, hd, h1f, h1l, h1s⟩ := detectDialectC_inv hio h1
  rw [stdEncoding_files hf, stdEncoding_idem, text_files (w := w) (by rw [hf])] at ht
  rw [hl] at hd
  refine ⟨old, data, r, w1, by rw [← hf]; exact ho, ht, hd, h1f.trans hf, h1l.trans hl, h1s.trans hs, ?_⟩
  cases r with
  | none =>
    simp only [act_pure, Prod.mk.injEq, Except.ok.injEq] at h
    exact .inl ⟨rfl, h.1.symm, h.2.symm⟩
  | some d => exact .inr ⟨d, rfl, h⟩

theorem handlePathC_error {sys : Sys} {io : Io} (hio : IoOk sys io) {a : StdArgs} {p : Path} {output : Option Path}
    {enc : Option Str} {w w' : World} {x : PyExc} (h : handlePathC sys io a p output enc w = (.error x, w')) :
    w'.files = w.files ∧ w'.stdout = w.stdout ∨
    ∃ old data d w1, w.files p = some old ∧
      (∀ text, w.text sys p (w.stdEncoding sys p enc) = some text → data = Spec.detectionPart text a.numChars) ∧
      (detect sys.env sys.order w.limit data).result = .ok (some d) ∧
      w1.files = w.files ∧ w1.limit = w.limit ∧ w1.stdout = w.stdout ∧
      deliverC sys io a p output d (w.stdEncoding sys p enc) (stdTarget a (w.stdEncoding sys p enc)) w1 =
        (.error x, w') := by
  rw [handlePathC_eq] at h
  have hnone : ∀ {α : Type} {m : Act α} {w w' : World} {x : Except PyExc α}, (∀ P, Only P m) → m w = (x, w') →
      w'.files = w.files := by
    intro α m w w' x hm h
    funext q
    have := hm (fun _ => False) w q id
    rw [h] at this
    exact this
  rcases bind_error_inv h with h | ⟨e, w0, h0, h⟩
  · have h2 := stdChoose_stdout sys p enc w
    rw [h] at h2
    exact .inl ⟨hnone (fun P => only_stdChoose P sys p enc) h, h2⟩
  obtain ⟨rfl, hf, hl, hs⟩ := stdChoose_inv h0
  rcases bind_error_inv h with h | ⟨r, w1, h1, h⟩
  · have h2 := detectDialectC_stdout sys io p a.numChars (w.stdEncoding sys p enc) w0
    rw [h] at h2
    exact .inl ⟨(hnone (fun P => only_detectDialectC P sys io p _ _ _ _) h).trans hf, h2.trans hs⟩
  cases r with
  | none => simp at h
  | some d =>
    right
    obtain ⟨old, data, ho, ht, hd, h1f, h1l, h1s⟩ := detectDialectC_inv hio h1
    rw [stdEncoding_files hf, stdEncoding_idem, text_files (w := w) (by rw [hf])] at ht
    rw [hl] at hd
    exact ⟨old, data, d, w1, by rw [← hf]; exact ho, ht, hd, h1f.trans hf, h1l.trans hl, h1s.trans hs, h⟩

end Clever
