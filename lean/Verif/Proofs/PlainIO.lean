import Verif.Proofs.PlainTables
import Verif.Props.Wrappers

/-! # Plain tables: reading and writing -/

namespace Clever.Props

open Clever Spec

/-- The text of a plain table in terms of its lines: with or without the last line end. -/
theorem tableText_lines {d : Char} {nl text : Str} {T : List (List Str)} (h : PlainTable T)
    (ht : text = tableText d nl T ∨ text ++ nl = tableText d nl T) :
    ∃ tail, (tail = [] ∨ tail = nl) ∧ text = joinStr nl (T.map (joinWith d)) ++ tail := by
  rw [tableText_eq h.rows] at ht
  rcases ht with rfl | h
  · exact ⟨nl, .inr rfl, rfl⟩
  · exact ⟨[], .inl rfl, by simpa using h⟩

/-! ## Reading -/

theorem _root_.Clever.Spec.PlainTable.parse {T : List (List Str)} (h : PlainTable T) {limit : Int} (hl : InLong limit)
    (hlen : ∀ r ∈ T, ∀ s ∈ r, (s.length : Int) ≤ limit) {d : Char} (hd : PlainDelim d) {nl : Str}
    (hnl : IsLineEnd nl) {text : Str} (ht : text = tableText d nl T ∨ text ++ nl = tableText d nl T) :
    parseString limit (dialectOf (some d) none none) text = (T, none) := by
  obtain ⟨tail, h1, rfl⟩ := tableText_lines h ht
  have hlines := textLines_lines (L := T.map (joinWith d)) (by simpa using h.rows) (fun l hl => h.line_ne hl)
    (fun l hl c hc => h.line_nl hd hl hc) hnl h1
  have hsplit : ∀ r ∈ T, splitOn d (joinWith d r) = r := by
    intro r hr
    refine splitOn_joinWith d r ?_ ?_
    · intro h0
      have := h.columns r hr
      rw [h0] at this
      simp at this
    · intro s hs hds
      have := h.elementary hr hs hds
      rw [plainDelim_elementary hd] at this
      cases this
  rw [C04_unquoted_is_split limit hl d false]
  · rw [hlines]
    congr 1
    rw [List.map_map]
    conv_rhs => rw [← List.map_id T]
    apply List.map_congr_left
    intro r hr
    simp only [Function.comp_apply, id]
    rw [if_neg (h.line_ne (List.mem_map_of_mem hr)), hsplit r hr]
  · intro hnul
    have hNUL : ¬ (NUL ∈ nl) := by rcases hnl with rfl | rfl | rfl <;> decide
    rcases List.mem_append.mp hnul with hm | hm
    · rcases mem_of_joinStr hm with hm | ⟨l, hl', hm⟩
      · exact hNUL hm
      · rcases h.line_char hl' hm with he | he
        · rcases hd with rfl | rfl | rfl | rfl <;> revert he <;> decide
        · revert he; decide
    · rcases h1 with rfl | rfl
      · simp at hm
      · exact hNUL hm
  · intro l hl' p hp
    rw [hlines] at hl'
    obtain ⟨r, hr, rfl⟩ := List.mem_map.mp hl'
    rw [hsplit r hr] at hp
    exact hlen r hr p hp

/-! ## Writing -/

/-- A writer that writes the cells of a table as they are. -/
structure WritesPlain (wd : WDialect) (T : List (List Str)) : Prop where
  quoting : wd.quoting = .minimal ∨ wd.quoting = .none
  chars : ∀ r ∈ T, ∀ s ∈ r, ∀ c ∈ s, wd.special c = false

theorem writeField_plain {wd : WDialect} (hq : wd.quoting = .minimal ∨ wd.quoting = .none) {s : Str}
    (h : ∀ c ∈ s, wd.special c = false) : wd.writeField s = .ok s := by
  have key : wd.writeChars s = .ok (s, false) := by
    induction s with
    | nil => rfl
    | cons c s ih =>
      have hc := h c (by simp)
      simp only [WDialect.writeChars, WDialect.writeChar, hc, Bool.not_false, if_true,
        ih (fun c hc => h c (List.mem_cons_of_mem _ hc)), bind, Except.bind, pure, Except.pure]
      rfl
  simp only [WDialect.writeField, key, bind, Except.bind, pure, Except.pure]
  rcases hq with h | h <;> simp [h]

theorem writeFields_plain {wd : WDialect} (hq : wd.quoting = .minimal ∨ wd.quoting = .none) : ∀ {r : List Str},
    (∀ s ∈ r, ∀ c ∈ s, wd.special c = false) → wd.writeFields r = .ok (joinWith wd.delimiter r)
  | [], _ => rfl
  | [s], h => by
    rw [WDialect.writeFields, writeField_plain hq (h s (by simp))]
    rfl
  | s :: t :: r, h => by
    rw [WDialect.writeFields, writeField_plain hq (h s (by simp)),
      writeFields_plain hq (r := t :: r) (fun s hs => h s (List.mem_cons_of_mem _ hs))]
    rfl

theorem writeGen_plain {wd : WDialect} : ∀ {T : List (List Str)}, (∀ r ∈ T, 2 ≤ r.length) → WritesPlain wd T →
    wd.writeGen T = (T.map fun r => joinWith wd.delimiter r ++ wd.lineterminator, none)
  | [], _, _ => rfl
  | r :: T, hc, h => by
    have hrow : wd.writeRow r = .ok (joinWith wd.delimiter r ++ wd.lineterminator) := by
      have h1 := writeFields_plain h.quoting (r := r) (h.chars r (by simp))
      have h2 : joinWith wd.delimiter r ≠ [] := by
        intro h0
        have := delim_mem_joinWith (d := wd.delimiter) (hc r (by simp))
        rw [h0] at this
        simp at this
      simp only [WDialect.writeRow, h1, h2, false_and, if_false, bind, Except.bind, pure, Except.pure]
    have ih := writeGen_plain (wd := wd) (T := T) (fun r hr => hc r (List.mem_cons_of_mem _ hr))
      ⟨h.quoting, fun r hr => h.chars r (List.mem_cons_of_mem _ hr)⟩
    simp only [WDialect.writeGen, hrow, ih, List.map_cons]

/-- A writer with one of the delimiters comma, semicolon, bar and tab, `\n` or `\r\n` as line terminator, minimal or no
quoting, and without a quote or escape character that occurs in the cells of the table. -/
structure PlainWriter (wd : WDialect) (T : List (List Str)) : Prop where
  delimiter : wd.delimiter ∈ [',', ';', '|', '\t']
  terminator : wd.lineterminator = ['\n'] ∨ wd.lineterminator = ['\r', '\n']
  quoting : wd.quoting = .minimal ∨ wd.quoting = .none
  chars : ∀ r ∈ T, ∀ s ∈ r, ∀ c ∈ s, wd.quotechar ≠ some c ∧ wd.escapechar ≠ some c

theorem PlainWriter.delim {wd : WDialect} {T : List (List Str)} (hw : PlainWriter wd T) : PlainDelim wd.delimiter := by
  simpa [PlainDelim] using hw.delimiter

theorem PlainWriter.lineEnd {wd : WDialect} {T : List (List Str)} (hw : PlainWriter wd T) :
    IsLineEnd wd.lineterminator := by
  rcases hw.terminator with h | h
  · exact .inl h
  · exact .inr (.inl h)

theorem PlainWriter.writes {wd : WDialect} {T : List (List Str)} (hw : PlainWriter wd T) (h : PlainTable T) :
    WritesPlain wd T := by
  refine ⟨hw.quoting, fun r hr s hs ch hch => ?_⟩
  have hel := h.elementary hr hs hch
  have h1 : ch ≠ wd.delimiter := elementary_ne hel (plainDelim_elementary hw.delim)
  have h2 : ch ≠ '\n' := elementary_ne hel (by decide)
  have h3 : ch ≠ '\r' := elementary_ne hel (by decide)
  have h4 : ch ∉ wd.lineterminator := by rcases hw.terminator with h | h <;> rw [h] <;> simp [h2, h3]
  obtain ⟨h5, h6⟩ := hw.chars r hr s hs ch hch
  simp [WDialect.special, h1, h2, h3, h4, h5, h6]

/-- Writing to a file with any writer that writes the cells as they are. -/
theorem write_plain {sys : Sys} (hq : Quiet sys) (p : Path) (enc : Option Str) (c : Codec)
    (hc : sys.codec enc = some c) {wd : WDialect} {T : List (List Str)} (h : PlainTable T) (hw : PlainWriter wd T)
    (hfit : Represents c (tableText wd.delimiter wd.lineterminator T)) (w : World) :
    ∃ w', (openTextWrite sys p enc >>= fun c => writeGen sys p c (wd.writeGen T)) w = (.ok (), w') ∧
      w'.text sys p enc = some (tableText wd.delimiter wd.lineterminator T) ∧
      (∀ q, q ≠ p → w'.files q = w.files q) ∧ w'.limit = w.limit ∧ w'.stdout = w.stdout := by
  rw [writeGen_plain h.columns (hw.writes h)]
  have he : (T.map fun r => joinWith wd.delimiter r ++ wd.lineterminator).flatten =
      tableText wd.delimiter wd.lineterminator T := by
    rw [tableText, List.flatMap_def]
  rw [← he] at hfit ⊢
  exact writeText_ok hq p enc c hc _ hfit w

/-! ## Dictionaries -/

/-- What the dictionary writer writes for dictionaries with its keys. -/
theorem dictWriter_writeAll {wd : WDialect} {keys : List Str} (hkn : keys.Nodup) {items : List (List (Str × Str))}
    (hkeys : ∀ d ∈ items, d.map Prod.fst = keys) :
    (⟨keys, [], "raise".toList, wd⟩ : DictWriter).writeAll items =
      wd.writeGen (keys :: items.map (·.map Prod.snd)) := by
  have hgen : ∀ ds : List (List (Str × Str)), (∀ d ∈ ds, d.map Prod.fst = keys) →
      (⟨keys, [], "raise".toList, wd⟩ : DictWriter).writeGen ds = wd.writeGen (ds.map (·.map Prod.snd)) := by
    intro ds
    induction ds with
    | nil => intro _; rfl
    | cons d ds ih =>
      intro h
      have hd := h d (by simp)
      have hrow : (⟨keys, [], "raise".toList, wd⟩ : DictWriter).writerow d = wd.writeRow (d.map Prod.snd) := by
        rw [C47_known_partial _ _ (by intro k hk; rw [hd] at hk; exact hk)]
        rw [← values_of_nodup d (by rw [hd]; exact hkn), hd]
      simp only [DictWriter.writeGen, List.map_cons, WDialect.writeGen, hrow]
      rw [ih (fun d hd => h d (by simp [hd]))]
  unfold DictWriter.writeAll
  rw [C47_header, hgen _ hkeys]
  rfl

/-- The dictionaries that come back. -/
theorem rowDicts_back {keys : List Str} (hk0 : keys ≠ []) (hkn : keys.Nodup) {items : List (List (Str × Str))}
    (hkeys : ∀ d ∈ items, d.map Prod.fst = keys) :
    ((items.map (·.map Prod.snd)).filter (· ≠ [])).map (rowDict (keys.map some) none) =
      items.map fun d => d.map fun kv => (some kv.1, DVal.cell kv.2) := by
  rw [List.filter_eq_self.mpr]
  · rw [List.map_map]
    apply List.map_congr_left
    intro d hd
    have hkd := hkeys d hd
    simp only [Function.comp_apply]
    rw [rowDict_eq]
    · have hlen : (d.map Prod.snd).length = (keys.map some).length := by simp [← hkd]
      rw [if_neg (by rw [hlen]; omega), List.drop_of_length_le (by rw [hlen])]
      rw [← hkd]
      simp only [List.map_map, List.map_nil, List.append_nil]
      clear hkd hd hlen
      induction d with
      | nil => rfl
      | cons x d ih => simp [ih]
    · exact List.Pairwise.map some (fun a b h h' => h (Option.some.inj h')) hkn
    · simp
  · intro row hr
    simp only [List.mem_map] at hr
    obtain ⟨d, hd, rfl⟩ := hr
    have hkd := hkeys d hd
    simp only [ne_eq, decide_eq_true_eq, List.map_eq_nil_iff]
    rintro rfl
    exact hk0 hkd.symm

end Clever.Props
