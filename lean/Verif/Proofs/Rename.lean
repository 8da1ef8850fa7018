import Verif.Model.PatternScore
import Verif.Model.Writer
import Verif.Spec.Rename

/-!
# Renaming characters
-/

namespace Clever

open Spec

variable {α β : Type}

/-- The configuration with its characters renamed. -/
def Cfg.rename (σ : Char → Char) (c : Cfg) : Cfg :=
  { c with delimiter := σ c.delimiter, quotechar := σ c.quotechar, escapechar := σ c.escapechar }

/-- The parser object with its characters renamed; `F` renames the cells. -/
def PObj.rename (σ : Char → Char) (F : α → β) (o : PObj α) : PObj β :=
  ⟨o.fields.map F, o.field.map σ, o.state⟩

/-- The result of a step with its characters renamed. -/
def renameR (σ : Char → Char) (F : α → β) : Except PErr (PObj α) → Except PErr (PObj β)
  | .error e => .error (renameErr σ e)
  | .ok o => .ok (o.rename σ F)

/-- The result of `Parser_iternext` renamed. -/
def Outcome.rename (σ : Char → Char) (F : α → β) : Outcome α → Outcome β
  | .row r => .row (r.map F)
  | .stop => .stop
  | .error e => .error (renameErr σ e)

/-- A string of the input renamed. -/
def Item.rename (σ : Char → Char) : Item → Item
  | .str s => .str (s.map σ)
  | i => i

/-- The characters with a meaning for the parser. -/
def Cfg.specials (c : Cfg) : List Char := [c.delimiter, c.quotechar, c.escapechar]

section

variable {σ : Char → Char} {cfg : Cfg} {mk : Str → Bool → α} {mk' : Str → Bool → β} {F : α → β}

theorem Spec.Renames.eq {S : List Char} (h : Renames σ S) {x c : Char} (hx : x ∈ NUL :: '\n' :: '\r' :: S) :
    (σ c = σ x) = (c = x) := propext ⟨h.apart x hx c, fun e => by rw [e]⟩

theorem Spec.Renames.eqNul {S : List Char} (h : Renames σ S) (c : Char) : (σ c = NUL) = (c = NUL) := by
  have := h.eq (x := NUL) (c := c) (by simp)
  rwa [h.nul] at this

theorem Spec.Renames.eqLf {S : List Char} (h : Renames σ S) (c : Char) : (σ c = '\n') = (c = '\n') := by
  have := h.eq (x := '\n') (c := c) (by simp)
  rwa [h.lf] at this

theorem Spec.Renames.eqCr {S : List Char} (h : Renames σ S) (c : Char) : (σ c = '\r') = (c = '\r') := by
  have := h.eq (x := '\r') (c := c) (by simp)
  rwa [h.cr] at this

theorem Spec.Renames.isNL {S : List Char} (h : Renames σ S) (c : Char) : Clever.isNL (σ c) = Clever.isNL c := by
  simp only [Clever.isNL, h.eqLf, h.eqCr]

theorem Spec.Renames.mono {S T : List Char} (h : Renames σ S) (hs : ∀ x ∈ T, x ∈ NUL :: '\n' :: '\r' :: S) :
    Renames σ T :=
  ⟨h.nul, h.lf, h.cr, fun x hx c hc => h.apart x (by
    simp only [List.mem_cons] at hx hs ⊢
    rcases hx with h | h | h | h
    · exact .inl h
    · exact .inr (.inl h)
    · exact .inr (.inr (.inl h))
    · exact hs x h) c hc⟩

theorem startsWithChar_rename {S : List Char} (h : Renames σ S) {q : Char} (hq : q ∈ NUL :: '\n' :: '\r' :: S) (s : Str) :
    startsWithChar (s.map σ) (σ q) = startsWithChar s q := by
  unfold startsWithChar
  cases s with
  | nil => simp
  | cons a s => simp [h.eq hq]

theorem endsWithChar_rename {S : List Char} (h : Renames σ S) {q : Char} (hq : q ∈ NUL :: '\n' :: '\r' :: S) (s : Str) :
    endsWithChar (s.map σ) (σ q) = endsWithChar s q := by
  unfold endsWithChar
  rw [List.getLast?_map]
  cases s.getLast? with
  | none => simp
  | some a => simp [h.eq hq]

theorem quoteCond_rename {S : List Char} (h : Renames σ S) {q : Char} (hq : q ∈ NUL :: '\n' :: '\r' :: S) (s : Str) :
    quoteCond (s.map σ) (σ q) = quoteCond s q := by
  simp only [quoteCond, h.eqNul, List.length_map, startsWithChar_rename h hq, endsWithChar_rename h hq]

theorem saveCell_rename {S : List Char} (h : Renames σ S) {q : Char} (hq : q ∈ NUL :: '\n' :: '\r' :: S) (s : Str)
    (t : Bool) : saveCell (σ q) (s.map σ) t = ((saveCell q s t).1.map σ, (saveCell q s t).2) := by
  have hr : (if quoteCond (s.map σ) (σ q) then (((s.map σ).drop 1).dropLast, true) else (s.map σ, false)) =
      ((if quoteCond s q then ((s.drop 1).dropLast, true) else (s, false)).1.map σ,
        (if quoteCond s q then ((s.drop 1).dropLast, true) else (s, false)).2) := by
    rw [quoteCond_rename h hq]
    split <;> simp [List.map_drop, List.map_dropLast]
  simp only [saveCell, hr]
  generalize (if quoteCond s q then ((s.drop 1).dropLast, true) else (s, false)) = r
  rw [startsWithChar_rename h hq]
  split <;> simp [List.map_drop]

theorem saveField_rename (h : Renames σ cfg.specials) (hF : ∀ s b, mk' (s.map σ) b = F (mk s b)) (o : PObj α) (t : Bool) :
    saveField (cfg.rename σ) mk' (o.rename σ F) t = (saveField cfg mk o t).rename σ F := by
  simp only [saveField, PObj.rename, Cfg.rename, List.map_append, List.map_cons, List.map_nil,
    saveCell_rename h (q := cfg.quotechar) (by simp [Cfg.specials]), hF]

theorem addChar_rename (o : PObj α) (c : Char) :
    addChar (cfg.rename σ) (o.rename σ F) (σ c) = renameR σ F (addChar cfg o c) := by
  simp only [addChar, PObj.rename, Cfg.rename, List.length_map]
  split
  · rfl
  · simp [renameR, PObj.rename]

theorem to_rename (o : PObj α) (s : PState) : (o.rename σ F).to s = (o.to s).rename σ F := rfl

theorem renameR_bind (x : Except PErr (PObj α)) (f : PObj α → Except PErr (PObj α)) (g : PObj β → Except PErr (PObj β))
    (hfg : ∀ o, g (o.rename σ F) = renameR σ F (f o)) :
    (renameR σ F x >>= g) = renameR σ F (x >>= f) := by
  cases x with
  | error e => rfl
  | ok o => exact hfg o

theorem renameR_ok (o : PObj α) : renameR σ F (.ok o) = .ok (o.rename σ F) := rfl

theorem stepStartField_rename (h : Renames σ cfg.specials) (hF : ∀ s b, mk' (s.map σ) b = F (mk s b)) (o : PObj α)
    (u : Char) : stepStartField (cfg.rename σ) mk' (o.rename σ F) (σ u) = renameR σ F (stepStartField cfg mk o u) := by
  have hd : (σ u = (cfg.rename σ).delimiter) = (u = cfg.delimiter) := h.eq (by simp [Cfg.specials])
  have hq : (σ u = (cfg.rename σ).quotechar) = (u = cfg.quotechar) := h.eq (by simp [Cfg.specials])
  have he : (σ u = (cfg.rename σ).escapechar) = (u = cfg.escapechar) := h.eq (by simp [Cfg.specials])
  simp only [stepStartField, h.isNL, h.eqNul, hd, hq, he, saveField_rename h hF, addChar_rename]
  split
  · rfl
  · split
    · exact renameR_bind _ _ _ fun o => rfl
    · split
      · rfl
      · split
        · rfl
        · exact renameR_bind _ _ _ fun o => rfl

theorem stepInField_rename (h : Renames σ cfg.specials) (hF : ∀ s b, mk' (s.map σ) b = F (mk s b)) (o : PObj α)
    (u : Char) : stepInField (cfg.rename σ) mk' (o.rename σ F) (σ u) = renameR σ F (stepInField cfg mk o u) := by
  have hd : (σ u = (cfg.rename σ).delimiter) = (u = cfg.delimiter) := h.eq (by simp [Cfg.specials])
  have hq : (σ u = (cfg.rename σ).quotechar) = (u = cfg.quotechar) := h.eq (by simp [Cfg.specials])
  have he : (σ u = (cfg.rename σ).escapechar) = (u = cfg.escapechar) := h.eq (by simp [Cfg.specials])
  simp only [stepInField, h.isNL, h.eqNul, hd, hq, he, saveField_rename h hF, addChar_rename]
  split
  · rfl
  · split
    · rfl
    · split
      · exact renameR_bind _ _ _ fun o => rfl
      · split
        · rfl
        · rfl

theorem processChar_rename (h : Renames σ cfg.specials) (hF : ∀ s b, mk' (s.map σ) b = F (mk s b)) (o : PObj α)
    (u v : Char) :
    processChar (cfg.rename σ) mk' (o.rename σ F) (σ u) (σ v) = renameR σ F (processChar cfg mk o u v) := by
  have hd : (σ u = (cfg.rename σ).delimiter) = (u = cfg.delimiter) := h.eq (by simp [Cfg.specials])
  have hq : (σ u = (cfg.rename σ).quotechar) = (u = cfg.quotechar) := h.eq (by simp [Cfg.specials])
  have hq' : (σ v = (cfg.rename σ).quotechar) = (v = cfg.quotechar) := h.eq (by simp [Cfg.specials])
  have he : (σ u = (cfg.rename σ).escapechar) = (u = cfg.escapechar) := h.eq (by simp [Cfg.specials])
  have hs : (o.rename σ F).state = o.state := rfl
  have hst : (cfg.rename σ).strict = cfg.strict := rfl
  have hesc : ∀ o : PObj α, addChar (cfg.rename σ) (o.rename σ F) (cfg.rename σ).escapechar =
      renameR σ F (addChar cfg o cfg.escapechar) := fun o => addChar_rename o _
  have hok : (Except.ok (o.rename σ F) : Except PErr (PObj β)) = renameR σ F (.ok o) := rfl
  unfold processChar
  rw [hs]
  cases o.state <;>
    simp only [h.isNL, h.eqNul, hd, hq, hq', he, hst, saveField_rename h hF, addChar_rename, to_rename,
      stepStartField_rename h hF, stepInField_rename h hF, ne_eq]
  · split
    · rfl
    · split <;> rfl
  · split
    · exact renameR_bind _ _ _ fun o => rfl
    · have hk : ∀ o : PObj α, (if u = NUL then (do
            let o ← Except.ok (o.rename σ F)
            Except.ok (o.to PState.inField))
          else do
            let o ← addChar (cfg.rename σ) (o.rename σ F) (σ u)
            Except.ok (o.to PState.inField)) =
          renameR σ F (if u = NUL then (do
            let o ← Except.ok o
            Except.ok (o.to PState.inField))
          else do
            let o ← addChar cfg o u
            Except.ok (o.to PState.inField)) := by
        intro o
        split
        · rfl
        · rw [addChar_rename]
          exact renameR_bind _ _ _ fun o => rfl
      split
      · rw [hesc]
        exact renameR_bind _ _ _ hk
      · rw [hok]
        exact renameR_bind _ _ _ hk
  · split
    · rfl
    · split
      · rfl
      · split
        · split
          · rfl
          · split
            · rfl
            · exact renameR_bind _ _ _ fun o => rfl
        · rfl
  · have h2 : (if u = NUL then '\n' else σ u) = σ (if u = NUL then '\n' else u) := by
      split
      · exact h.lf.symm
      · rfl
    rw [h2]
    have hk : ∀ o : PObj α, (do
          let o ← addChar (cfg.rename σ) (o.rename σ F) (σ (if u = NUL then '\n' else u))
          Except.ok (o.to PState.inQuotedField)) =
        renameR σ F (do
          let o ← addChar cfg o (if u = NUL then '\n' else u)
          Except.ok (o.to PState.inQuotedField)) := by
      intro o
      rw [addChar_rename]
      exact renameR_bind _ _ _ fun o => rfl
    split
    · rw [hesc]
      exact renameR_bind _ _ _ hk
    · rw [hok]
      exact renameR_bind _ _ _ hk
  · split
    · exact renameR_bind _ _ _ fun o => rfl
    · split
      · rfl
      · split
        · rfl
        · split
          · exact renameR_bind _ _ _ fun o => rfl
          · rfl
  · split
    · rfl
    · split <;> rfl
  · split <;> rfl

theorem feedLine_rename (h : Renames σ cfg.specials) (hF : ∀ s b, mk' (s.map σ) b = F (mk s b)) :
    ∀ (l : Str) (o : PObj α), feedLine (cfg.rename σ) mk' (o.rename σ F) (l.map σ) = renameR σ F (feedLine cfg mk o l)
  | [], o => by
    have := processChar_rename h hF o NUL NUL
    rw [h.nul] at this
    exact this
  | u :: rest, o => by
    have hv : (rest.map σ).headD NUL = σ (rest.headD NUL) := by cases rest <;> simp [h.nul]
    simp only [List.map_cons, feedLine, h.eqNul, hv, processChar_rename h hF]
    split
    · rfl
    · cases processChar cfg mk o u (rest.headD NUL) with
      | error e => rfl
      | ok o' => exact feedLine_rename h hF rest o'

theorem nextRowFrom_rename (h : Renames σ cfg.specials) (hF : ∀ s b, mk' (s.map σ) b = F (mk s b)) :
    ∀ (items : List Item) (o : PObj α), nextRowFrom (cfg.rename σ) mk' (o.rename σ F) (items.map (Item.rename σ)) =
      ((nextRowFrom cfg mk o items).1.rename σ F, (nextRowFrom cfg mk o items).2.map (Item.rename σ))
  | [], o => by
    have hf : ((o.rename σ F).field ≠ [] ∨ (o.rename σ F).state = .inQuotedField) =
        (o.field ≠ [] ∨ o.state = .inQuotedField) := by
      simp [PObj.rename]
    have hst : (cfg.rename σ).strict = cfg.strict := rfl
    simp only [List.map_nil, nextRowFrom, hf, hst, saveField_rename h hF]
    split
    · split <;> rfl
    · rfl
  | .raise :: rest, o => rfl
  | .nonstr :: rest, o => rfl
  | .str l :: rest, o => by
    simp only [List.map_cons, Item.rename, nextRowFrom, feedLine_rename h hF]
    cases feedLine cfg mk o l with
    | error e => rfl
    | ok o' =>
      simp only [renameR]
      have hs : (o'.rename σ F).state = o'.state := rfl
      rw [hs]
      split
      · rfl
      · exact nextRowFrom_rename h hF rest o'

theorem parseRowsAux_rename (h : Renames σ cfg.specials) (hF : ∀ s b, mk' (s.map σ) b = F (mk s b)) :
    ∀ (n : Nat) (items : List Item), parseRowsAux (cfg.rename σ) mk' n (items.map (Item.rename σ)) =
      ((parseRowsAux cfg mk n items).1.map (List.map F), (parseRowsAux cfg mk n items).2.map (renameErr σ))
  | 0, _ => rfl
  | n + 1, items => by
    have hn := nextRowFrom_rename h hF items PObj.init
    have hi : (PObj.init : PObj α).rename σ F = PObj.init := rfl
    rw [hi] at hn
    simp only [parseRowsAux, nextRow, hn]
    rcases nextRowFrom cfg mk PObj.init items with ⟨o, rest⟩
    cases o with
    | stop => rfl
    | error e => rfl
    | row r => simp only [Outcome.rename, parseRowsAux_rename h hF n rest, List.map_cons]

theorem linesUniv_rename {S : List Char} (h : Renames σ S) : ∀ t : Str, linesUniv (t.map σ) = (linesUniv t).map (List.map σ)
  | [] => rfl
  | c :: rest => by
    have hl : lineEndAfter (σ c) (rest.map σ) = lineEndAfter c rest := by
      unfold lineEndAfter
      cases rest with
      | nil => simp [h.eqLf, h.eqCr]
      | cons a r => simp [h.eqLf, h.eqCr]
    simp only [List.map_cons, linesUniv, hl, linesUniv_rename h rest]
    split
    · rfl
    · cases linesUniv rest <;> rfl

theorem parseText_rename (h : Renames σ cfg.specials) (hF : ∀ s b, mk' (s.map σ) b = F (mk s b)) (t : Str) :
    parseText (cfg.rename σ) mk' (t.map σ) =
      ((parseText cfg mk t).1.map (List.map F), (parseText cfg mk t).2.map (renameErr σ)) := by
  have hi : strItems (linesUniv (t.map σ)) = (strItems (linesUniv t)).map (Item.rename σ) := by
    rw [linesUniv_rename h]
    simp [strItems, Item.rename, Function.comp_def]
  rw [parseText, parseText, hi, parseRows, parseRows, List.length_map]
  exact parseRowsAux_rename h hF _ _

theorem setChar_rename {S : List Char} (h : Renames σ S) (n : String) (x : Option Str) :
    setChar n (x.map (List.map σ)) = (setChar n x).map σ := by
  match x with
  | none => simp [setChar, Except.map, h.nul]
  | some [] => simp [setChar, Except.map, h.nul]
  | some [c] => rfl
  | some (a :: b :: r) => rfl

theorem setChar_mem {n : String} {x : Option Str} {c : Char} (h : setChar n x = .ok c) : c = NUL ∨ x = some [c] := by
  match x with
  | none => simp only [setChar, Except.ok.injEq] at h; exact .inl h.symm
  | some [] => simp only [setChar, Except.ok.injEq] at h; exact .inl h.symm
  | some [c'] => simp only [setChar, Except.ok.injEq] at h; exact .inr (by rw [h])
  | some (a :: b :: r) => simp [setChar] at h

/-- Each character of a dialect is one that is kept apart. -/
theorem setChar_special {n : String} {x : Option Str} {c : Char} {S : List Char} (h : setChar n x = .ok c)
    (hs : ∀ a ∈ x.getD [], a ∈ S) : c ∈ NUL :: '\n' :: '\r' :: S := by
  rcases setChar_mem h with rfl | rfl
  · simp
  · have := hs c (by simp)
    simp [this]

theorem cfg_rename {d : SimpleDialect} (h : Renames σ (dialectChars d)) (limit : Int) :
    (renameDialect σ d).cfg limit = (d.cfg limit).map (Cfg.rename σ) ∧
    ∀ cfg, d.cfg limit = .ok cfg → Renames σ cfg.specials := by
  simp only [SimpleDialect.cfg, mkCfg, renameDialect, setChar_rename h, bind, Except.bind, pure, Except.pure]
  cases h1 : setChar "delimiter" d.delimiter with
  | error e => simp [Except.map]
  | ok del =>
    simp only [Except.map]
    cases h2 : setChar "quotechar" d.quotechar with
    | error e => simp
    | ok quo =>
      simp only
      cases h3 : setChar "escapechar" d.escapechar with
      | error e => simp
      | ok esc =>
        simp only
        cases setLong limit with
        | error e => simp
        | ok l =>
          refine ⟨rfl, ?_⟩
          simp only [Except.ok.injEq]
          rintro cfg rfl
          refine h.mono ?_
          have e1 := setChar_special (S := dialectChars d) h1 (by simp [dialectChars]; tauto)
          have e2 := setChar_special (S := dialectChars d) h2 (by simp [dialectChars]; tauto)
          have e3 := setChar_special (S := dialectChars d) h3 (by simp [dialectChars]; tauto)
          simp only [Cfg.specials, List.mem_cons, List.not_mem_nil, or_false, forall_eq_or_imp, forall_eq]
          simp only [List.mem_cons] at e1 e2 e3
          exact ⟨e1, e2, e3⟩

theorem parseData_rename {d : SimpleDialect} (h : Renames σ (dialectChars d)) (hF : ∀ s b, mk' (s.map σ) b = F (mk s b))
    (limit : Int) (items : List Item) :
    parseData limit (renameDialect σ d) mk' (items.map (Item.rename σ)) =
      ((parseData limit d mk items).1.map (List.map F), (parseData limit d mk items).2.map (renameExc σ)) := by
  obtain ⟨h1, h2⟩ := cfg_rename h limit
  unfold parseData
  rw [h1]
  cases hc : d.cfg limit with
  | error e =>
    have : renameExc σ e = e := by
      simp only [SimpleDialect.cfg, mkCfg, bind, Except.bind, pure, Except.pure] at hc
      have hs : ∀ n x e, setChar n x = .error e → renameExc σ e = e := by
        intro n x e he
        unfold setChar at he
        split at he <;> cases he
        rfl
      cases h1 : setChar "delimiter" d.delimiter with
      | error e' => rw [h1] at hc; cases hc; exact hs _ _ _ h1
      | ok del =>
        rw [h1] at hc
        simp only at hc
        cases h2 : setChar "quotechar" d.quotechar with
        | error e' => rw [h2] at hc; cases hc; exact hs _ _ _ h2
        | ok quo =>
          rw [h2] at hc
          simp only at hc
          cases h3 : setChar "escapechar" d.escapechar with
          | error e' => rw [h3] at hc; cases hc; exact hs _ _ _ h3
          | ok esc =>
            rw [h3] at hc
            simp only [setLong] at hc
            split at hc
            · rename_i he
              cases hc
              split at he
              · cases he
              · cases he; rfl
            · cases hc
    simp [Except.map, this]
  | ok cfg =>
    simp only [Except.map, parseRows, List.length_map, parseRowsAux_rename (h2 cfg hc) hF, Option.map_map]
    rfl

/-! ## The abstraction -/

theorem absStep_rename {d q e : Char} (h : Renames σ [d, q, e]) (st : AbsState) (s : Char) :
    absStep (σ d) (σ q) (σ e) st (σ s) = absStep d q e st s := by
  simp only [absStep, h.eqLf, h.eqCr, h.eq (x := d) (c := s) (by simp), h.eq (x := q) (c := s) (by simp),
    h.eq (x := e) (c := s) (by simp)]

theorem baseAbstraction_rename {d q e : Char} (h : Renames σ [d, q, e]) (t : Str) :
    baseAbstraction (σ d) (σ q) (σ e) (t.map σ) = baseAbstraction d q e t := by
  simp only [baseAbstraction, List.foldl_map, absStep_rename h]

theorem makeAbstraction_rename {d : SimpleDialect} (h : Renames σ (dialectChars d)) (t : Str) :
    makeAbstraction (t.map σ) (renameDialect σ d) = makeAbstraction t d := by
  simp only [makeAbstraction, baseAbstractionPy, renameDialect, setChar_rename h, bind, Except.bind, pure, Except.pure]
  cases h1 : setChar "delimiter" d.delimiter with
  | error e => rfl
  | ok del =>
    cases h2 : setChar "quotechar" d.quotechar with
    | error e => rfl
    | ok quo =>
      cases h3 : setChar "escapechar" d.escapechar with
      | error e => rfl
      | ok esc =>
        have e1 := setChar_special (S := dialectChars d) h1 (by simp [dialectChars]; tauto)
        have e2 := setChar_special (S := dialectChars d) h2 (by simp [dialectChars]; tauto)
        have e3 := setChar_special (S := dialectChars d) h3 (by simp [dialectChars]; tauto)
        have hr : Renames σ [del, quo, esc] := h.mono (by
          simp only [List.mem_cons, List.not_mem_nil, or_false, forall_eq_or_imp, forall_eq]
          simp only [List.mem_cons] at e1 e2 e3
          exact ⟨e1, e2, e3⟩)
        simp only [Except.map, baseAbstraction_rename hr]

/-! ## The writer -/

/-- A dialect of the writer with its characters renamed. -/
def WDialect.rename (σ : Char → Char) (w : WDialect) : WDialect :=
  { w with delimiter := σ w.delimiter, quotechar := w.quotechar.map σ, escapechar := w.escapechar.map σ,
           lineterminator := w.lineterminator.map σ }

/-- The characters with a meaning for the writer. -/
def WDialect.chars (w : WDialect) : List Char :=
  w.delimiter :: (w.quotechar.toList ++ w.escapechar.toList ++ w.lineterminator)

variable {w : WDialect}

theorem optEq_rename {S : List Char} (h : Renames σ S) {x : Option Char} (hx : ∀ a ∈ x, a ∈ S) (c : Char) :
    (x.map σ = some (σ c)) = (x = some c) := by
  cases x with
  | none => simp
  | some a =>
    simp only [Option.map_some, Option.some.injEq]
    exact propext ⟨fun e => (h.apart a (by simp [hx a rfl]) c e.symm).symm, fun e => by rw [e]⟩

theorem special_rename (h : Renames σ w.chars) (c : Char) : (w.rename σ).special (σ c) = w.special c := by
  have hd : (σ c = (w.rename σ).delimiter) = (c = w.delimiter) := h.eq (by simp [WDialect.chars])
  have he : ((w.rename σ).escapechar = some (σ c)) = (w.escapechar = some c) :=
    optEq_rename h (by simp +contextual [WDialect.chars]) c
  have hq : ((w.rename σ).quotechar = some (σ c)) = (w.quotechar = some c) :=
    optEq_rename h (by simp +contextual [WDialect.chars]) c
  have hl : (w.rename σ).lineterminator.contains (σ c) = w.lineterminator.contains c := by
    rw [Bool.eq_iff_iff]
    simp only [WDialect.rename, List.contains_iff_mem, List.mem_map]
    constructor
    · rintro ⟨a, ha, hac⟩
      have := h.apart a (by simp [WDialect.chars, ha]) c hac.symm
      exact this ▸ ha
    · exact fun hc => ⟨c, hc, rfl⟩
  simp only [WDialect.special, hd, he, hq, h.eqLf, h.eqCr, hl]

/-- Renamed text of the writer. -/
def renameW (σ : Char → Char) : Except PyExc (Str × Bool) → Except PyExc (Str × Bool)
  | .error e => .error e
  | .ok x => .ok (x.1.map σ, x.2)

theorem escaped_rename (c : Char) (b : Bool) :
    ((w.rename σ).escaped (σ c)).map (·, b) = renameW σ ((w.escaped c).map (·, b)) := by
  unfold WDialect.escaped WDialect.rename
  cases w.escapechar <;> rfl

theorem writeChar_rename (h : Renames σ w.chars) (c : Char) :
    (w.rename σ).writeChar (σ c) = renameW σ (w.writeChar c) := by
  have he : ((w.rename σ).escapechar = some (σ c)) = (w.escapechar = some c) :=
    optEq_rename h (by simp +contextual [WDialect.chars]) c
  have hq : ((w.rename σ).quotechar = some (σ c)) = (w.quotechar = some c) :=
    optEq_rename h (by simp +contextual [WDialect.chars]) c
  have h1 : (w.rename σ).quoting = w.quoting := rfl
  have h2 : (w.rename σ).doublequote = w.doublequote := rfl
  simp only [WDialect.writeChar, special_rename h, he, hq, h1, h2, escaped_rename]
  split
  · rfl
  · split
    · rfl
    · split
      · split <;> rfl
      · split <;> rfl

theorem writeChars_rename (h : Renames σ w.chars) : ∀ s : Str,
    (w.rename σ).writeChars (s.map σ) = renameW σ (w.writeChars s)
  | [] => rfl
  | c :: cs => by
    simp only [List.map_cons, WDialect.writeChars, writeChar_rename h, writeChars_rename h cs, bind, Except.bind]
    cases w.writeChar c with
    | error e => rfl
    | ok x =>
      simp only [renameW]
      cases w.writeChars cs with
      | error e => rfl
      | ok y => simp [pure, Except.pure, renameW]

theorem writeField_rename (h : Renames σ w.chars) (s : Str) :
    (w.rename σ).writeField (s.map σ) = (w.writeField s).map (List.map σ) := by
  have h1 : (w.rename σ).quoting = w.quoting := rfl
  have h2 : (w.rename σ).quotechar.toList = w.quotechar.toList.map σ := by
    unfold WDialect.rename; cases w.quotechar <;> rfl
  simp only [WDialect.writeField, writeChars_rename h, bind, Except.bind, pure, Except.pure, h1, h2]
  cases w.writeChars s with
  | error e => rfl
  | ok x =>
    simp only [renameW, Except.map]
    split <;> simp

theorem writeFields_rename (h : Renames σ w.chars) : ∀ r : List Str,
    (w.rename σ).writeFields (r.map (List.map σ)) = (w.writeFields r).map (List.map σ)
  | [] => rfl
  | [s] => writeField_rename h s
  | s :: t :: r => by
    have ih := writeFields_rename h (t :: r)
    simp only [List.map_cons] at ih
    simp only [List.map_cons, WDialect.writeFields, writeField_rename h, ih, bind, Except.bind, pure, Except.pure]
    cases w.writeField s with
    | error e => rfl
    | ok x =>
      simp only [Except.map]
      cases w.writeFields (t :: r) with
      | error e => rfl
      | ok y => simp [WDialect.rename]

theorem writeRow_rename (h : Renames σ w.chars) (r : List Str) :
    (w.rename σ).writeRow (r.map (List.map σ)) = (w.writeRow r).map (List.map σ) := by
  have h1 : (w.rename σ).quoting = w.quoting := rfl
  have h2 : (w.rename σ).quotechar.toList = w.quotechar.toList.map σ := by
    unfold WDialect.rename; cases w.quotechar <;> rfl
  have h3 : (w.rename σ).lineterminator = w.lineterminator.map σ := rfl
  simp only [WDialect.writeRow, writeFields_rename h, bind, Except.bind, pure, Except.pure, h1, h2, h3]
  cases w.writeFields r with
  | error e => rfl
  | ok x =>
    simp only [Except.map, ne_eq, List.map_eq_nil_iff]
    split
    · split
      · rfl
      · simp
    · simp

end

end Clever
