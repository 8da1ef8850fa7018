import Verif.Proofs.ParserInv
import Verif.Proofs.ParseApi
import Verif.Model.Dialect

/-!
# The parser with two field size limits
-/

namespace Clever

variable {α β : Type}

/-- The same result, or the error of the lower limit. -/
def LimRel (L : Int) (r r' : Except PErr β) : Prop := r = r' ∨ r = .error (.fieldLimit L)

theorem LimRel.refl {L : Int} (r : Except PErr β) : LimRel L r r := .inl rfl

theorem LimRel.bind {L : Int} {γ : Type} {r r' : Except PErr β} {f f' : β → Except PErr γ} (h : LimRel L r r')
    (hf : ∀ x, LimRel L (f x) (f' x)) : LimRel L (r >>= f) (r' >>= f') := by
  rcases h with rfl | rfl
  · cases r with
    | error e => exact .inl rfl
    | ok x => exact hf x
  · exact .inr rfl

/-- The configuration with another limit. -/
def Cfg.withLimit (cfg : Cfg) (L : Int) : Cfg := { cfg with fieldLimit := L }

theorem addChar_lim {cfg : Cfg} {L : Int} (h : cfg.fieldLimit ≤ L) (o : PObj α) (c : Char) :
    LimRel cfg.fieldLimit (addChar cfg o c) (addChar (cfg.withLimit L) o c) := by
  unfold addChar
  by_cases h1 : (o.field.length : Int) ≥ cfg.fieldLimit
  · rw [if_pos h1]; exact .inr rfl
  · rw [if_neg h1, if_neg (by simp only [Cfg.withLimit]; omega)]; exact .inl rfl

theorem stepStartField_lim {cfg : Cfg} {L : Int} (h : cfg.fieldLimit ≤ L) (mk : Str → Bool → α) (o : PObj α)
    (u : Char) : LimRel cfg.fieldLimit (stepStartField cfg mk o u) (stepStartField (cfg.withLimit L) mk o u) := by
  unfold stepStartField
  show LimRel _ _ (ite _ _ (ite (u = cfg.quotechar) _ (ite (u = cfg.escapechar) _ (ite (u = cfg.delimiter) _ _))))
  split
  · exact .inl rfl
  split
  · exact (addChar_lim h o u).bind fun _ => .inl rfl
  split
  · exact .inl rfl
  split
  · exact .inl rfl
  · exact (addChar_lim h o u).bind fun _ => .inl rfl

theorem stepInField_lim {cfg : Cfg} {L : Int} (h : cfg.fieldLimit ≤ L) (mk : Str → Bool → α) (o : PObj α)
    (u : Char) : LimRel cfg.fieldLimit (stepInField cfg mk o u) (stepInField (cfg.withLimit L) mk o u) := by
  unfold stepInField
  show LimRel _ _ (ite _ _ (ite (u = cfg.escapechar) _ (ite (u = cfg.quotechar) _ (ite (u = cfg.delimiter) _ _))))
  split
  · exact .inl rfl
  split
  · exact .inl rfl
  split
  · exact (addChar_lim h o u).bind fun _ => .inl rfl
  split
  · exact .inl rfl
  · exact addChar_lim h o u

theorem processChar_lim {cfg : Cfg} {L : Int} (h : cfg.fieldLimit ≤ L) (mk : Str → Bool → α) (o : PObj α)
    (u v : Char) : LimRel cfg.fieldLimit (processChar cfg mk o u v) (processChar (cfg.withLimit L) mk o u v) := by
  unfold processChar
  cases o.state with
  | startRecord =>
    simp only
    split
    · exact .inl rfl
    split
    · exact .inl rfl
    · exact stepStartField_lim h mk _ u
  | startField => exact stepStartField_lim h mk _ u
  | escapedChar =>
    simp only
    split
    · exact (addChar_lim h o u).bind fun _ => .inl rfl
    · have key : ∀ a : PObj α, LimRel cfg.fieldLimit
          (if u = NUL then (do let o ← Except.ok a; .ok (PObj.to o .inField))
            else (do let o ← addChar cfg a u; .ok (o.to .inField)))
          (if u = NUL then (do let o ← Except.ok a; .ok (PObj.to o .inField))
            else (do let o ← addChar (cfg.withLimit L) a u; .ok (o.to .inField))) := by
        intro a
        split
        · exact .inl rfl
        · exact (addChar_lim h a u).bind fun _ => .inl rfl
      show LimRel _ (ite _ _ _)
        (ite (u ≠ NUL ∧ u ≠ cfg.delimiter ∧ u ≠ cfg.escapechar ∧ u ≠ cfg.quotechar) _ _)
      split
      · exact (addChar_lim h o _).bind fun a => key a
      · exact key o
  | afterEscapedCRNL =>
    simp only
    split
    · exact .inl rfl
    · exact stepInField_lim h mk _ u
  | inField => exact stepInField_lim h mk _ u
  | inQuotedField =>
    show LimRel _ (ite _ _ (ite _ _ (ite _ (ite _ _ (ite _ _ _)) _)))
      (ite _ _ (ite (u = cfg.escapechar) _ (ite (u = cfg.quotechar)
        (ite (v = cfg.quotechar) _ (ite (cfg.strict = true) _ _)) _)))
    split
    · exact .inl rfl
    split
    · exact .inl rfl
    split
    · split
      · exact .inl rfl
      split
      · exact .inl rfl
      · exact (addChar_lim h o u).bind fun _ => .inl rfl
    · exact addChar_lim h o u
  | escapeInQuotedField =>
    show LimRel _ (ite _ _ _)
      (ite (u ≠ cfg.escapechar ∧ u ≠ cfg.delimiter ∧ u ≠ cfg.quotechar ∧ u ≠ NUL) _ _)
    split
    · exact (addChar_lim h o _).bind fun a => (addChar_lim h _ _).bind fun _ => .inl rfl
    · exact (addChar_lim h o _).bind fun _ => .inl rfl
  | quoteInQuotedField =>
    show LimRel _ (ite _ _ (ite _ _ (ite _ _ (ite _ _ _))))
      (ite (u = cfg.quotechar) _ (ite (u = cfg.delimiter) _ (ite _ _ (ite ((!cfg.strict) = true) _ _))))
    split
    · exact (addChar_lim h o u).bind fun _ => .inl rfl
    split
    · exact .inl rfl
    split
    · exact .inl rfl
    split
    · exact (addChar_lim h o u).bind fun _ => .inl rfl
    · exact .inl rfl
  | eatCRNL => exact .inl rfl

theorem feedLine_lim {cfg : Cfg} {L : Int} (h : cfg.fieldLimit ≤ L) (mk : Str → Bool → α) (l : Str) (o : PObj α) :
    LimRel cfg.fieldLimit (feedLine cfg mk o l) (feedLine (cfg.withLimit L) mk o l) := by
  induction l generalizing o with
  | nil => exact processChar_lim h mk o _ _
  | cons u rest ih =>
    rw [feedLine, feedLine]
    split
    · exact .inl rfl
    · rcases processChar_lim h mk o u (rest.headD NUL) with h1 | h1
      · rw [h1]
        split
        · exact .inl rfl
        · exact ih _
      · rw [h1]; exact .inr rfl

theorem nextRowFrom_lim {cfg : Cfg} {L : Int} (h : cfg.fieldLimit ≤ L) (mk : Str → Bool → α) (items : List Item)
    (o : PObj α) :
    nextRowFrom cfg mk o items = nextRowFrom (cfg.withLimit L) mk o items ∨
    (nextRowFrom cfg mk o items).1 = .error (.fieldLimit cfg.fieldLimit) := by
  induction items generalizing o with
  | nil => exact .inl rfl
  | cons it items ih =>
    cases it with
    | raise => exact .inl rfl
    | nonstr => exact .inl rfl
    | str l =>
      rw [nextRowFrom, nextRowFrom]
      rcases feedLine_lim h mk l o with h1 | h1
      · rw [h1]
        split
        · exact .inl rfl
        · split
          · exact .inl rfl
          · exact ih _
      · rw [h1]; exact .inr rfl

theorem parseRowsAux_lim {cfg : Cfg} {L : Int} (h : cfg.fieldLimit ≤ L) (mk : Str → Bool → α) (n : Nat)
    (items : List Item) :
    parseRowsAux cfg mk n items = parseRowsAux (cfg.withLimit L) mk n items ∨
    (parseRowsAux cfg mk n items).2 = some (.fieldLimit cfg.fieldLimit) ∧
      (parseRowsAux cfg mk n items).1 <+: (parseRowsAux (cfg.withLimit L) mk n items).1 := by
  induction n generalizing items with
  | zero => exact .inl rfl
  | succ n ih =>
    rw [parseRowsAux, parseRowsAux]
    unfold nextRow
    rcases nextRowFrom_lim h mk items PObj.init with h1 | h1
    · rw [h1]
      split
      · exact .inl rfl
      · exact .inl rfl
      · rename_i r rest _
        rcases ih rest with h2 | ⟨h2, h3⟩
        · left; rw [h2]
        · right
          simp only [h2, true_and]
          exact List.cons_prefix_cons.mpr ⟨rfl, h3⟩
    · right
      rcases hn : nextRowFrom cfg mk PObj.init items with ⟨out, rest⟩
      rw [hn] at h1
      simp only at h1
      subst h1
      simp

/-- With a lower limit the parser gives the same, or stops with the error for the lower limit after the same
rows. -/
theorem parseString_lim {L L' : Int} (hL : InLong L) (hL' : InLong L') (h : L ≤ L') (d : SimpleDialect) (t : Str) :
    parseString L d t = parseString L' d t ∨
    (parseString L d t).2 = some (.parse (.fieldLimit L)) ∧
      (parseString L d t).1 <+: (parseString L' d t).1 := by
  have hl : ∀ {x : Int}, InLong x → setLong x = .ok x := by
    intro x hx
    unfold setLong
    exact if_pos hx
  have hcfg : (∃ e, d.cfg L = .error e ∧ d.cfg L' = .error e) ∨
      ∃ cfg, d.cfg L = .ok cfg ∧ d.cfg L' = .ok (cfg.withLimit L') ∧ cfg.fieldLimit = L := by
    unfold SimpleDialect.cfg mkCfg
    simp only [bind, Except.bind]
    split
    · exact .inl ⟨_, rfl, rfl⟩
    split
    · exact .inl ⟨_, rfl, rfl⟩
    split
    · exact .inl ⟨_, rfl, rfl⟩
    rw [hl hL, hl hL']
    exact .inr ⟨_, rfl, rfl, rfl⟩
  unfold parseString parseData
  rcases hcfg with ⟨e, h1, h2⟩ | ⟨cfg, h1, h2, h3⟩
  · rw [h1, h2]; exact .inl rfl
  · rw [h1, h2]
    simp only
    unfold parseRows
    rcases parseRowsAux_lim (cfg := cfg) (L := L') (by omega) mkPlain ((strItems (linesUniv t)).length + 1)
      (strItems (linesUniv t)) with h4 | ⟨h4, h5⟩
    · rw [h4]; exact .inl rfl
    · rw [h4, h3]; exact .inr ⟨rfl, h5⟩

end Clever
