import Verif.Model.Wrappers
import Verif.Spec.World
import Verif.Proofs.WriterApi
import Verif.Proofs.DictIO

/-!
# Programs that act on files
-/

namespace Clever

open Props

variable {α β : Type}

theorem act_bind (m : Act α) (f : α → Act β) (w : World) :
    (m >>= f) w = match m w with
      | (.ok a, w') => f a w'
      | (.error e, w') => (.error e, w') := rfl

theorem act_bind_ok {m : Act α} {f : α → Act β} {w w' : World} {a : α} (h : m w = (.ok a, w')) :
    (m >>= f) w = f a w' := by
  rw [act_bind, h]

theorem act_bind_error {m : Act α} {f : α → Act β} {w w' : World} {e : PyExc}
    (h : m w = (.error e, w')) : (m >>= f) w = (.error e, w') := by
  rw [act_bind, h]

@[simp] theorem act_pure (a : α) (w : World) : (pure a : Act α) w = (.ok a, w) := rfl

@[simp] theorem raise_apply (e : PyExc) (w : World) : (raise e : Act α) w = (.error e, w) := rfl

@[simp] theorem liftExcept_apply (x : Except PyExc α) (w : World) : liftExcept x w = (x, w) := rfl

@[simp] theorem getLimit_apply (w : World) : getLimit w = (.ok w.limit, w) := rfl

/-- One more operation has been done. -/
def World.next (w : World) : World := { w with ticks := w.ticks + 1 }

@[simp] theorem World.next_files (w : World) : w.next.files = w.files := rfl
@[simp] theorem World.next_limit (w : World) : w.next.limit = w.limit := rfl
@[simp] theorem World.next_stdout (w : World) : w.next.stdout = w.stdout := rfl
@[simp] theorem World.set_limit (w : World) (p : Path) (b : Option Bytes) : (w.set p b).limit = w.limit := rfl
@[simp] theorem World.set_stdout (w : World) (p : Path) (b : Option Bytes) :
    (w.set p b).stdout = w.stdout := rfl
@[simp] theorem World.set_self (w : World) (p : Path) (b : Option Bytes) : (w.set p b).files p = b := by
  simp [World.set]
theorem World.set_other (w : World) {p q : Path} (b : Option Bytes) (h : q ≠ p) :
    (w.set p b).files q = w.files q := by
  simp [World.set, h]

/-- An environment in which no operation fails. -/
def Quiet (sys : Sys) : Prop := ∀ n, sys.fault n = none

theorem tick_apply (sys : Sys) (w : World) : tick sys w = (.ok (sys.fault w.ticks), w.next) := rfl

theorem openRead_apply (sys : Sys) (p : Path) (w : World) :
    openRead sys p w =
      match sys.fault w.ticks with
      | some _ => (.error .osError, w.next)
      | none =>
        match w.files p with
        | none => (.error .osError, w.next)
        | some b => (.ok b, w.next) := by
  unfold openRead
  rw [act_bind_ok (tick_apply sys w)]
  cases sys.fault w.ticks with
  | some k => rfl
  | none => rfl

theorem openWrite_apply (sys : Sys) (p : Path) (w : World) :
    openWrite sys p w =
      match sys.fault w.ticks with
      | some _ => (.error .osError, w.next)
      | none => (.ok (), w.next.set p (some [])) := by
  unfold openWrite
  rw [act_bind_ok (tick_apply sys w)]
  cases sys.fault w.ticks <;> rfl

theorem append_apply (sys : Sys) (p : Path) (b : Bytes) (w : World) :
    append sys p b w =
      match sys.fault w.ticks with
      | some k => (.error .osError, w.next.set p (some ((w.files p).getD [] ++ b.take k)))
      | none => (.ok (), w.next.set p (some ((w.files p).getD [] ++ b))) := by
  unfold append
  rw [act_bind_ok (tick_apply sys w)]
  cases sys.fault w.ticks <;> rfl

theorem unlink_apply (sys : Sys) (p : Path) (w : World) :
    unlink sys p w =
      match sys.fault w.ticks with
      | some _ => (.error .osError, w.next)
      | none => (.ok (), w.next.set p none) := by
  unfold unlink
  rw [act_bind_ok (tick_apply sys w)]
  cases sys.fault w.ticks <;> rfl

theorem rename_apply (sys : Sys) (p q : Path) (w : World) :
    rename sys p q w =
      match sys.fault w.ticks with
      | some _ => (.error .osError, w.next)
      | none => (.ok (), (w.next.set q (w.files p)).set p none) := by
  unfold rename
  rw [act_bind_ok (tick_apply sys w)]
  cases sys.fault w.ticks <;> rfl

theorem mkstemp_apply (sys : Sys) (w : World) :
    mkstemp sys w =
      match sys.fault w.ticks with
      | some _ => (.error .osError, w.next)
      | none =>
        if w.files (sys.tempName w.files) = none then
          (.ok (sys.tempName w.files), w.next.set (sys.tempName w.files) (some []))
        else (.error .osError, w.next) := by
  unfold mkstemp
  rw [act_bind_ok (tick_apply sys w)]
  cases sys.fault w.ticks <;> rfl

theorem getCodec_apply (sys : Sys) (e : Option Str) (w : World) :
    getCodec sys e w = match sys.codec e with
      | none => (.error .lookupError, w)
      | some c => (.ok c, w) := by
  unfold getCodec
  cases sys.codec e <;> rfl

theorem openRead_quiet {sys : Sys} (hq : Quiet sys) {p : Path} {w : World} {b : Bytes} (h : w.files p = some b) :
    openRead sys p w = (.ok b, w.next) := by
  rw [openRead_apply, hq]
  simp only [h]

theorem openText_ok {sys : Sys} {p : Path} {encoding : Option Str} {w : World} {text : Str}
    (hf : sys.fault w.ticks = none) (h : w.text sys p encoding = some text) :
    openText sys p encoding w = (.ok text, w.next) := by
  unfold World.text at h
  cases hb : w.files p with
  | none => simp [hb] at h
  | some b =>
    cases hc : sys.codec encoding with
    | none => simp [hb, hc] at h
    | some c =>
      simp only [hb, hc, Option.bind_some] at h
      unfold openText
      have h1 : openRead sys p w = (.ok b, w.next) := by rw [openRead_apply, hf, hb]
      have h2 : getCodec sys encoding w.next = (.ok c, w.next) := by rw [getCodec_apply, hc]
      rw [act_bind_ok h1, act_bind_ok h2, h]
      rfl

theorem encodeFrom_append (c : Codec) : ∀ (x y : Str) (s : Nat),
    c.encodeFrom s (x ++ y) =
      (c.encodeFrom s x).bind fun r => (c.encodeFrom r.1 y).map fun r' => (r'.1, r.2 ++ r'.2)
  | [], y, s => by
    simp only [List.nil_append, Codec.encodeFrom, Option.bind_some]
    cases c.encodeFrom s y <;> rfl
  | a :: x, y, s => by
    simp only [List.cons_append, Codec.encodeFrom]
    cases h : c.step s a with
    | none => rfl
    | some r =>
      rcases r with ⟨s', b⟩
      simp only
      rw [encodeFrom_append c x y s']
      cases h2 : c.encodeFrom s' x with
      | none => rfl
      | some r2 =>
        simp only [Option.bind_some]
        cases c.encodeFrom r2.1 y <;> simp [List.append_assoc]

/-- Without faults, encodable pieces arrive in the file, and nothing else changes. -/
theorem writePieces_ok {sys : Sys} (hq : Quiet sys) (p : Path) (c : Codec) :
    ∀ (pieces : List Str) (s : Nat) (w : World) (old : Bytes) (s' : Nat) (b : Bytes),
    w.files p = some old → c.encodeFrom s pieces.flatten = some (s', b) →
    ∃ w', writePieces sys p c s pieces w = (.ok (), w') ∧ w'.files p = some (old ++ b) ∧
      (∀ q, q ≠ p → w'.files q = w.files q) ∧ w'.limit = w.limit ∧ w'.stdout = w.stdout
  | [], s, w, old, s', b, ho, he => by
    simp only [List.flatten_nil, Codec.encodeFrom, Option.some.injEq, Prod.mk.injEq] at he
    exact ⟨w, rfl, by simp [ho, ← he.2], fun _ _ => rfl, rfl, rfl⟩
  | x :: xs, s, w, old, s', b, ho, he => by
    rw [List.flatten_cons, encodeFrom_append] at he
    cases hx : c.encodeFrom s x with
    | none => simp [hx] at he
    | some r =>
      rcases r with ⟨s1, b1⟩
      simp only [hx, Option.bind_some] at he
      cases hxs : c.encodeFrom s1 xs.flatten with
      | none => simp [hxs] at he
      | some r2 =>
        rcases r2 with ⟨s2, b2⟩
        simp only [hxs, Option.map_some, Option.some.injEq, Prod.mk.injEq] at he
        have h1 : append sys p b1 w = (.ok (), w.next.set p (some (old ++ b1))) := by
          rw [append_apply, hq, ho]; rfl
        obtain ⟨w', h2, h3, h4, h5, h6⟩ := writePieces_ok hq p c xs s1 (w.next.set p (some (old ++ b1)))
          (old ++ b1) s2 b2 (by simp) hxs
        refine ⟨w', ?_, ?_, ?_, by simpa using h5, by simpa using h6⟩
        · unfold writePieces
          rw [hx]
          simp only
          rw [act_bind_ok h1, h2]
        · rw [h3, ← he.2, List.append_assoc]
        · intro q hqp
          rw [h4 q hqp, World.set_other _ _ hqp]
          rfl

/-- A text that an encoding can represent: it can be encoded, and is what decoding returns. -/
def Represents (c : Codec) (text : Str) : Prop :=
  ∃ s b, c.encodeFrom 0 text = some (s, b) ∧ c.decode b = some text

/-- Without faults: writing a text that can be represented to a new or truncated file. -/
theorem writeText_ok {sys : Sys} (hq : Quiet sys) (p : Path) (encoding : Option Str) (c : Codec)
    (hc : sys.codec encoding = some c) (pieces : List Str) (hr : Represents c pieces.flatten) (w : World) :
    ∃ w', (openTextWrite sys p encoding >>= fun c => writeGen sys p c (pieces, none)) w = (.ok (), w') ∧
      w'.text sys p encoding = some pieces.flatten ∧
      (∀ q, q ≠ p → w'.files q = w.files q) ∧ w'.limit = w.limit ∧ w'.stdout = w.stdout := by
  obtain ⟨s, b, he, hd⟩ := hr
  have h0 : openWrite sys p w = (.ok (), w.next.set p (some [])) := by rw [openWrite_apply, hq]
  have h1 : openTextWrite sys p encoding w = (.ok c, w.next.set p (some [])) := by
    unfold openTextWrite
    rw [act_bind_ok h0, getCodec_apply, hc]
  obtain ⟨w', h2, h3, h4, h5, h6⟩ := writePieces_ok hq p c pieces 0 (w.next.set p (some [])) [] s b
    (by simp) he
  refine ⟨w', ?_, ?_, ?_, by simpa using h5, by simpa using h6⟩
  · rw [act_bind_ok h1]
    unfold writeGen
    rw [act_bind_ok h2]
    rfl
  · unfold World.text
    rw [h3, hc]
    simpa using hd
  · intro q hqp
    rw [h4 q hqp, World.set_other _ _ hqp]
    rfl

/-! ## What the writer writes -/

theorem writeGen_flatten (wd : WDialect) (rows : List (List Str)) :
    (wd.writeGen rows).1.flatten = (wd.writeRows rows).1 ∧ (wd.writeGen rows).2 = (wd.writeRows rows).2 := by
  induction rows with
  | nil => exact ⟨rfl, rfl⟩
  | cons r rs ih =>
    unfold WDialect.writeGen WDialect.writeRows
    cases wd.writeRow r with
    | error e => exact ⟨rfl, rfl⟩
    | ok x => exact ⟨by simp [ih.1], ih.2⟩

/-- The characters that the excel writer adds to those of the cells. -/
def excelChar (ch : Char) : Prop := ch = ',' ∨ ch = '"' ∨ ch = '\r' ∨ ch = '\n'

theorem excel_writeChars (s : Str) : ∀ x, excelWriter.writeChars s = .ok x → ∀ ch ∈ x.1, ch ∈ s := by
  induction s with
  | nil =>
    intro x h ch hc
    simp only [WDialect.writeChars, Except.ok.injEq] at h
    rw [← h] at hc
    simp at hc
  | cons a s ih =>
    intro x h ch hc
    simp only [WDialect.writeChars, bind, Except.bind, pure, Except.pure] at h
    cases h1 : excelWriter.writeChar a with
    | error e => simp [h1] at h
    | ok y =>
      cases h2 : excelWriter.writeChars s with
      | error e => simp [h1, h2] at h
      | ok z =>
        simp only [h1, h2, Except.ok.injEq] at h
        rw [← h] at hc
        simp only [List.mem_append] at hc
        rcases hc with hc | hc
        · have : ∀ ch ∈ y.1, ch = a := by
            simp only [WDialect.writeChar, excelWriter, WDialect.escaped] at h1
            repeat' split at h1
            all_goals
              simp only [Except.ok.injEq, Except.map, reduceCtorEq, if_false] at h1
              try (rw [← h1]; simp)
          simp [this ch hc]
        · simp [ih z h2 ch hc]

theorem excel_writeField (s x : Str) (h : excelWriter.writeField s = .ok x) (ch : Char) (hc : ch ∈ x) :
    excelChar ch ∨ ch ∈ s := by
  simp only [WDialect.writeField, bind, Except.bind, pure, Except.pure] at h
  cases h1 : excelWriter.writeChars s with
  | error e => simp [h1] at h
  | ok y =>
    simp only [h1, Except.ok.injEq] at h
    split at h
    · rw [← h] at hc
      simp only [excelWriter, Option.toList, List.mem_append, List.mem_singleton] at hc
      rcases hc with (hc | hc) | hc
      · exact .inl (.inr (.inl hc))
      · exact .inr (excel_writeChars s y h1 ch hc)
      · exact .inl (.inr (.inl hc))
    · rw [← h] at hc
      exact .inr (excel_writeChars s y h1 ch hc)

theorem excel_writeFields : ∀ (row : List Str) (x : Str), excelWriter.writeFields row = .ok x →
    ∀ ch ∈ x, excelChar ch ∨ ∃ s ∈ row, ch ∈ s
  | [], x, h, ch, hc => by
    simp only [WDialect.writeFields, Except.ok.injEq] at h
    rw [← h] at hc
    simp at hc
  | [s], x, h, ch, hc => by
    rcases excel_writeField s x h ch hc with h | h
    · exact .inl h
    · exact .inr ⟨s, by simp, h⟩
  | s :: t :: r, x, h, ch, hc => by
    simp only [WDialect.writeFields, bind, Except.bind, pure, Except.pure] at h
    cases h1 : excelWriter.writeField s with
    | error e => simp [h1] at h
    | ok y =>
      cases h2 : excelWriter.writeFields (t :: r) with
      | error e => simp [h1, h2] at h
      | ok z =>
        simp only [h1, h2, Except.ok.injEq] at h
        rw [← h] at hc
        simp only [List.mem_append, List.mem_cons] at hc
        rcases hc with hc | hc | hc
        · rcases excel_writeField s y h1 ch hc with h | h
          · exact .inl h
          · exact .inr ⟨s, by simp, h⟩
        · exact .inl (.inl hc)
        · rcases excel_writeFields (t :: r) z h2 ch hc with h | ⟨u, hu, h⟩
          · exact .inl h
          · exact .inr ⟨u, by simp only [List.mem_cons] at hu ⊢; exact .inr hu, h⟩

theorem excel_writeRow (row : List Str) (x : Str) (h : excelWriter.writeRow row = .ok x) (ch : Char)
    (hc : ch ∈ x) : excelChar ch ∨ ∃ s ∈ row, ch ∈ s := by
  simp only [WDialect.writeRow, bind, Except.bind, pure, Except.pure] at h
  cases h1 : excelWriter.writeFields row with
  | error e => simp [h1] at h
  | ok y =>
    simp only [h1] at h
    split at h
    · split at h
      · simp at h
      · simp only [Except.ok.injEq] at h
        rw [← h] at hc
        simp [excelWriter] at hc
        exact .inl (by unfold excelChar; tauto)
    · simp only [Except.ok.injEq] at h
      rw [← h] at hc
      simp only [excelWriter, List.mem_append, List.mem_cons, List.not_mem_nil, or_false] at hc
      rcases hc with hc | hc | hc
      · exact excel_writeFields row y h1 ch hc
      · exact .inl (.inr (.inr (.inl hc)))
      · exact .inl (.inr (.inr (.inr hc)))

/-- The text that the excel writer produces consists of the characters of the cells, and commas, quotes
and line ends. -/
theorem excel_writeRows_chars (rows : List (List Str)) (ch : Char) (hc : ch ∈ (excelWriter.writeRows rows).1) :
    excelChar ch ∨ ∃ row ∈ rows, ∃ s ∈ row, ch ∈ s := by
  induction rows with
  | nil => simp [WDialect.writeRows] at hc
  | cons r rs ih =>
    unfold WDialect.writeRows at hc
    cases h : excelWriter.writeRow r with
    | error e => simp [h] at hc
    | ok x =>
      simp only [h, List.mem_append] at hc
      rcases hc with hc | hc
      · rcases excel_writeRow r x h ch hc with h | ⟨s, hs, h⟩
        · exact .inl h
        · exact .inr ⟨r, by simp, s, hs, h⟩
      · rcases ih hc with h | ⟨r', hr', h⟩
        · exact .inl h
        · exact .inr ⟨r', by simp [hr'], h⟩

/-! ## Reading -/

/-- Reading a text in terms of the reader object. -/
theorem readText_ok {limit : Int} {arg : DialectArg} {f : FmtParams} {text : Str} {rows : List (List Str)}
    (h : readText limit arg f text = .ok rows) :
    ∃ rd, mkReader (.stream (strItems (linesUniv text))) arg f = .ok rd ∧ rd.readAll limit = (rows, none) := by
  simp only [readText, bind, Except.bind] at h
  cases hr : mkReader (.stream (strItems (linesUniv text))) arg f with
  | error e => simp [hr] at h
  | ok rd =>
    simp only [hr] at h
    refine ⟨rd, rfl, ?_⟩
    rcases hg : rd.readAll limit with ⟨rows', err⟩
    rw [hg] at h
    cases err with
    | some e => simp [Gen.toList] at h
    | none => simp only [Gen.toList, Except.ok.injEq] at h; rw [h]

theorem chooseEncoding_ok {sys : Sys} (hq : Quiet sys) {w : World} {p : Path} {b : Bytes}
    (hb : w.files p = some b) (encoding : Option Str) :
    ∃ w', chooseEncoding sys p encoding w = (.ok (w.encodingFor sys p encoding), w') ∧
      w'.files = w.files ∧ w'.limit = w.limit ∧ w'.stdout = w.stdout := by
  cases encoding with
  | some e => exact ⟨w, rfl, rfl, rfl, rfl⟩
  | none =>
    refine ⟨w.next, ?_, rfl, rfl, rfl⟩
    have h1 : openRead sys p w = (.ok b, w.next) := by rw [openRead_apply, hq, hb]
    unfold chooseEncoding getEncoding
    simp only
    rw [act_bind_ok h1]
    simp [World.encodingFor, World.guess, hb]

theorem text_some {sys : Sys} {w : World} {p : Path} {enc : Option Str} {text : Str}
    (h : w.text sys p enc = some text) : ∃ b, w.files p = some b := by
  unfold World.text at h
  cases hb : w.files p with
  | none => simp [hb] at h
  | some b => exact ⟨b, rfl⟩

/-- The beginning of the reading wrappers: finding the encoding, and opening the file. -/
theorem open_ok {β : Type} {sys : Sys} (hq : Quiet sys) {w : World} {p : Path} {encoding : Option Str}
    {text : Str} (h : w.text sys p (w.encodingFor sys p encoding) = some text) (f : Str → Act β) :
    ∃ w', (do let encoding ← chooseEncoding sys p encoding
              let text ← openText sys p encoding
              f text) w = f text w' ∧ w'.files = w.files ∧ w'.limit = w.limit ∧ w'.stdout = w.stdout := by
  obtain ⟨b, hb⟩ := text_some h
  obtain ⟨w', h1, h2, h3, h4⟩ := chooseEncoding_ok hq hb encoding
  refine ⟨w'.next, ?_, h2, h3, h4⟩
  rw [act_bind_ok h1, act_bind_ok (openText_ok (hq _) (?_ : w'.text sys p _ = some text))]
  unfold World.text at h ⊢
  rw [h2]
  exact h

/-! ## An environment for examples -/

/-- The ASCII encoding. -/
def asciiCodec : Codec where
  step s c := if c.toNat < 128 then some (s, [c.toNat.toUInt8]) else none
  decode b := if b.all (· < 128) then some (b.map fun x => Char.ofNat x.toNat) else none

/-- A detector that reports ASCII. -/
def asciiSniffer : EncDetector where
  State := Unit
  init := ()
  feed _ _ := ()
  done _ := false
  result _ := some "ascii".toList

/-- An environment without faults, and ASCII as its only encoding. -/
def demoSys : Sys where
  codec _ := some asciiCodec
  sniffer := asciiSniffer
  env := asciiEnv
  order := .forward
  fault _ := none
  sha1 b := b.map fun x => Char.ofNat x.toNat
  tempName _ := "tmp".toList
  crossDevice := false

/-- A world with the given files. -/
def demoWorld (files : List (String × String)) : World where
  files p := (files.find? (fun f => f.1.toList = p)).map fun f => f.2.toList.map fun c => c.toNat.toUInt8
  ticks := 0
  limit := 131072
  stdout := []

theorem ascii_byte : ∀ n < 128, n.toUInt8 < 128 ∧ n.toUInt8.toNat = n := by decide

theorem ascii_represents (text : Str) (h : ∀ c ∈ text, c.toNat < 128) : Represents asciiCodec text := by
  have h1 : ∀ text : Str, (∀ c ∈ text, c.toNat < 128) →
      asciiCodec.encodeFrom 0 text = some (0, text.map fun c => c.toNat.toUInt8) := by
    intro text
    induction text with
    | nil => intro _; rfl
    | cons c cs ih =>
      intro h
      have hc := h c (by simp)
      unfold Codec.encodeFrom
      rw [show asciiCodec.step 0 c = some (0, [c.toNat.toUInt8]) by simp [asciiCodec, hc]]
      simp only
      rw [ih (fun c hc => h c (by simp [hc]))]
      simp
  refine ⟨0, _, h1 text h, ?_⟩
  unfold asciiCodec
  simp only
  rw [if_pos]
  · congr 1
    rw [List.map_map]
    conv => rhs; rw [← List.map_id text]
    apply List.map_congr_left
    intro c hc
    simp only [Function.comp_apply, id_eq]
    rw [(ascii_byte _ (h c hc)).2, Char.ofNat_toNat]
  · rw [List.all_map, List.all_eq_true]
    intro c hc
    simp only [Function.comp_apply, decide_eq_true_eq]
    exact (ascii_byte _ (h c hc)).1

end Clever
