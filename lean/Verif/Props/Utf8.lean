import Verif.Proofs.Utf8
import Verif.Spec.Utf8
import Verif.Props.Chunked

/-!
# C125: files in UTF-8
-/

namespace Clever.Props

open Clever Spec

theorem utf8Char_core (c : Char) : utf8Char c = String.utf8EncodeChar c := by
  have hb := char_bound c
  apply map_toNat_inj
  unfold utf8Char String.utf8EncodeChar
  have e : c.val.toNat = c.toNat := rfl
  simp only [e]
  generalize c.toNat = n at *
  by_cases h1 : n < 0x80
  · rw [if_pos h1, if_pos (show n ≤ 0x7f by omega)]
  rw [if_neg h1, if_neg (show ¬ n ≤ 0x7f by omega)]
  by_cases h2 : n < 0x800
  · rw [if_pos h2, if_pos (show n ≤ 0x7ff by omega)]
    simp only [List.map_cons, List.map_nil, UInt8.toNat_ofNat', List.cons.injEq, and_true]
    omega
  rw [if_neg h2, if_neg (show ¬ n ≤ 0x7ff by omega)]
  by_cases h3 : n < 0x10000
  · rw [if_pos h3, if_pos (show n ≤ 0xffff by omega)]
    simp only [List.map_cons, List.map_nil, UInt8.toNat_ofNat', List.cons.injEq, and_true]
    omega
  · rw [if_neg h3, if_neg (show ¬ n ≤ 0xffff by omega)]
    simp only [List.map_cons, List.map_nil, UInt8.toNat_ofNat', List.cons.injEq, and_true]
    omega

theorem utf8_core (t : Str) : t.flatMap utf8Char = utf8 t := by
  unfold utf8
  congr 1
  funext c
  exact utf8Char_core c

/-- C125, encoding: every text can be encoded, and gives its bytes in UTF-8. -/
theorem C125_encode (s : Nat) (t : Str) : utf8Codec.encodeFrom s t = some (s, utf8 t) := by
  induction t with
  | nil => rfl
  | cons c t ih =>
    simp only [Codec.encodeFrom]
    rw [show utf8Codec.step s c = some (s, utf8Char c) from rfl, utf8Char_core]
    simp only [ih]
    rfl

/-- C125, decoding: exactly the bytes of texts are decoded, to these texts. -/
theorem C125_decode (b : Bytes) (t : Str) : utf8Codec.decode b = some t ↔ b = utf8 t := by
  change utf8Decoder.whole b = some t ↔ b = utf8 t
  rw [← utf8_core]
  constructor
  · intro h
    simp only [Decoder.whole, Decoder.decode] at h
    cases hf : utf8Decoder.feed 0 b with
    | none => simp [hf] at h
    | some r =>
      obtain ⟨s, t'⟩ := r
      obtain ⟨tail, h1, h2⟩ := utf8_feed_inv b 0 [] s t' (.inl ⟨rfl, rfl⟩) hf
      simp only [hf, Bool.true_and, Bool.not_eq_true', Option.map_eq_some_iff] at h
      obtain ⟨a, h, rfl⟩ := h
      split at h
      · cases h
      rename_i h3
      simp only [Option.some.injEq] at h
      subst h
      have hs : s = 0 := by simpa [utf8Decoder] using h3
      subst hs
      have : tail = [] := by
        rcases h2 with ⟨-, h⟩ | ⟨x, h, -⟩ | ⟨x, h, -⟩ | ⟨x, h, -⟩ | ⟨x, y, h, -⟩ | ⟨x, y, h, -⟩ | ⟨x, y, z, h, -⟩
        · exact List.map_eq_nil_iff.mp h
        all_goals omega
      subst this
      simpa using h1
  · rintro rfl
    have h0 : utf8Decoder.atEnd 0 = true := rfl
    simp [Decoder.whole, Decoder.decode, utf8_feed_text, h0]

/-- C125, errors: the decoder raises an error as soon as the bytes are not the beginning of a text in UTF-8, and not before. -/
theorem C125_errors (b : Bytes) : utf8Decoder.feed 0 b ≠ none ↔ ∃ t, b <+: utf8 t := by
  constructor
  · intro h
    cases hf : utf8Decoder.feed 0 b with
    | none => exact absurd hf h
    | some r =>
      obtain ⟨s, t⟩ := r
      obtain ⟨tail, h1, h2⟩ := utf8_feed_inv b 0 [] s t (.inl ⟨rfl, rfl⟩) hf
      rw [List.nil_append] at h1
      rcases pending_ext h2 with rfl | ⟨c, rest, h3⟩
      · exact ⟨t, by rw [h1, ← utf8_core]; simp⟩
      · refine ⟨t ++ [c], rest, ?_⟩
        rw [← utf8_core, h1, List.flatMap_append, List.append_assoc, h3]
        simp
  · rintro ⟨t, r, h⟩ hn
    have := utf8_feed_text t
    rw [utf8_core, ← h, Decoder.feed_append, hn] at this
    cases this

/-- C125, chunks: a file in UTF-8 gives its text, its first characters and its lines however it is divided into chunks. -/
theorem C125_chunks {f : TextIn} (hf : Fresh f) (hd : f.dec = utf8Decoder) (hx : f.fails = false) (t : Str)
    (hc : f.chunks.flatten = utf8 t) :
    f.readAll = .ok t ∧ (∀ n, f.readN n = .ok (t.take n)) ∧ f.lines = (linesUniv t, none) := by
  have hr : Readable f t := by
    refine ⟨hx, 0, ?_, ?_⟩
    · rw [hd, hc, ← utf8_core]
      exact utf8_feed_text t
    · rw [hd]; rfl
  exact ⟨(C123_all hf).1 t hr, fun n => (C123_prefix hf n).1 t hr, (C123_lines hf).1 t hr⟩

theorem utf8_represents (t : Str) : Represents utf8Codec t :=
  ⟨0, utf8 t, C125_encode 0 t, (C125_decode _ _).mpr rfl⟩

/-- C125, tables: `write_table` and `read_table` with UTF-8 give back every rectangular table of strings without NUL that leave
room for two quotes within the limit. -/
theorem C125_table (sys : Sys) (hq : Quiet sys) (w : World) (hl : InLong w.limit) (p : Path)
    (enc : Str) (hc : sys.codec (some enc) = some utf8Codec) (table : Iter (List Str))
    (hne : table.items ≠ []) (hrect : Spec.Rect table.items)
    (hn : ∀ row ∈ table.items, ∀ s ∈ row, NUL ∉ s)
    (hlen : ∀ row ∈ table.items, ∀ s ∈ row, (s.length + 2 : Int) ≤ w.limit) (numChars : Option Int) :
    ∃ w' w'', (writeTable sys table p (encoding := some enc)) w = (.ok (), w') ∧
      (∀ q, q ≠ p → w'.files q = w.files q) ∧
      readTable sys p (some (.name "excel")) (some enc) numChars w' = (.ok table.items, w'') := by
  obtain ⟨w', w'', T, h1, h2, h3, h4, -⟩ := C49_round_trip_partial sys hq w hl p enc utf8Codec hc table hne hrect hn hlen
    (fun t _ => utf8_represents t) false numChars
  rw [h4 rfl] at h3
  exact ⟨w', w'', h1, h2, h3⟩

/-- C125, dictionaries: the same for `write_dicts` and `read_dicts`. -/
theorem C125_dicts (sys : Sys) (hq : Quiet sys) (w : World) (hl : InLong w.limit) (p : Path)
    (enc : Str) (hc : sys.codec (some enc) = some utf8Codec) (items : Iter (List (Str × Str)))
    (keys : List Str) (hk0 : keys ≠ []) (hkn : keys.Nodup) (hne : items.items ≠ [])
    (hkeys : ∀ d ∈ items.items, d.map Prod.fst = keys)
    (hn : ∀ row ∈ keys :: items.items.map (·.map Prod.snd), ∀ s ∈ row, NUL ∉ s)
    (hlen : ∀ row ∈ keys :: items.items.map (·.map Prod.snd), ∀ s ∈ row, (s.length + 2 : Int) ≤ w.limit)
    (numChars : Option Int) :
    ∃ w' w'', (writeDicts sys items p (encoding := some enc)) w = (.ok (), w') ∧
      (∀ q, q ≠ p → w'.files q = w.files q) ∧
      (readDicts sys p (some (.name "excel")) (some enc) numChars) w' =
        (.ok (items.items.map fun d => d.map fun kv => (some kv.1, DVal.cell kv.2)), w'') :=
  C48_round_trip_partial sys hq w hl p enc utf8Codec hc items keys hk0 hkn hne hkeys hn hlen
    (fun t _ => utf8_represents t) numChars

/-- C125, standardize: with UTF-8 as the target encoding the command finishes whenever the file can be decoded and parsed in the
detected dialect, if nothing fails: every table can be written. -/
theorem C125_standardize (sys : Sys) (hq : Quiet sys) (a : StdArgs) (p : Path) (output : Option Path)
    (hpo : output ≠ some p) (enc : Option Str) (w : World) (rows : List (List Str))
    (hrows : DetectedRows sys w p enc a.numChars rows) (hfresh : w.files (sys.tempName w.files) = none)
    (hc : sys.codec (stdTarget a (w.stdEncoding sys p enc)) = some utf8Codec) :
    ∃ c w', handlePath sys a p output enc w = (.ok c, w') ∧ (c = 0 ∨ c = 2) :=
  C52_completes sys hq a p output hpo enc w rows hrows hfresh
    ⟨_, _, standardText_excelText _, encodes_of (encoded_of hc (C125_encode 0 _))⟩

/-! ## Examples -/

/-- A character of each length; overlong encodings, surrogates and code points that are too large are refused at the second byte;
a lonely continuation byte and a missing byte. -/
example :
    utf8Codec.encodeFrom 0 "aé€😀".toList = some (0, [97, 195, 169, 226, 130, 172, 240, 159, 152, 128]) ∧
    utf8Codec.decode [97, 195, 169, 226, 130, 172, 240, 159, 152, 128] = some "aé€😀".toList ∧
    utf8Decoder.feed 0 [224] ≠ none ∧ utf8Decoder.feed 0 [224, 159] = none ∧ utf8Decoder.feed 0 [237, 160] = none ∧
    utf8Decoder.feed 0 [240, 143] = none ∧ utf8Decoder.feed 0 [244, 144] = none ∧ utf8Decoder.feed 0 [192] = none ∧
    utf8Decoder.feed 0 [128] = none ∧ utf8Codec.decode [97, 226, 130] = none := by decide +kernel

/-- Chunks that end within a character. -/
example :
    let f : TextIn := { dec := utf8Decoder, chunks := [[97, 195], [169, 13], [10, 226, 130], [172]], fails := false }
    f.lines = (["aé\r\n".toList, "€".toList], none) ∧ f.readN 2 = .ok "aé".toList := by decide +kernel

/-- A system with UTF-8. -/
def utf8Sys : Sys := { demoSys with codec := fun _ => some utf8Codec }

example :
    let w := (writeTable utf8Sys ⟨[["é".toList, "€,".toList], ["1".toList, "😀".toList]], true⟩ "f".toList
      (encoding := some "utf-8".toList)) (demoWorld [])
    w.1 = .ok () ∧
    (readTable utf8Sys "f".toList (some (.name "excel")) (some "utf-8".toList) none w.2).1 =
      .ok [["é".toList, "€,".toList], ["1".toList, "😀".toList]] := by decide +kernel

end Clever.Props
