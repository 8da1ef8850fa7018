import Verif.Spec.Newlines
import Verif.Model.Lines
import Verif.Proofs.ParserInv

/-!
# The parser and the newline convention
-/

namespace Clever

open Spec

variable {α β γ : Type}

theorem recode_append (nl s t : Str) : recode nl (s ++ t) = recode nl s ++ recode nl t := by
  induction s with
  | nil => rfl
  | cons c s ih => simp [recode, ih]

theorem recode_id {nl t : Str} (h : '\n' ∉ t) : recode nl t = t := by
  induction t with
  | nil => rfl
  | cons c t ih =>
    simp only [List.mem_cons, not_or] at h
    rw [recode, if_neg (Ne.symm h.1), ih h.2]
    rfl

theorem recode_snoc {nl t : Str} {c : Char} (h : c ≠ '\n') : recode nl (t ++ [c]) = recode nl t ++ [c] := by
  rw [recode_append]
  simp [recode, h]

theorem recode_eq_nil {nl t : Str} (h : IsNewline nl) : recode nl t = [] ↔ t = [] := by
  cases t with
  | nil => simp [recode]
  | cons c t =>
    rw [recode]
    split
    · rcases h with rfl | rfl <;> simp
    · simp

theorem recode_length (t : Str) : (recode ['\r'] t).length = t.length := by
  induction t with
  | nil => rfl
  | cons c t ih =>
    rw [recode]
    split <;> simp [ih]

theorem le_recode_length {nl : Str} (h : IsNewline nl) (t : Str) : t.length ≤ (recode nl t).length := by
  induction t with
  | nil => simp
  | cons c t ih =>
    rw [recode]
    rcases h with rfl | rfl <;> split <;> simp <;> omega

theorem mem_recode {nl t : Str} {c : Char} (h : IsNewline nl) (hc : isNL c = false) : c ∈ recode nl t ↔ c ∈ t := by
  induction t with
  | nil => simp [recode]
  | cons x t ih =>
    rw [recode]
    have h1 : c ≠ '\n' := by rintro rfl; simp [isNL] at hc
    have h2 : c ≠ '\r' := by rintro rfl; simp [isNL] at hc
    split
    · rename_i hx
      subst hx
      rcases h with rfl | rfl <;> simp [ih, h1, h2]
    · simp [ih]

theorem recode_head {nl t : Str} {c : Char} (h : IsNewline nl) (hc : isNL c = false) :
    (recode nl t).head? = some c ↔ t.head? = some c := by
  cases t with
  | nil => simp [recode]
  | cons x t =>
    have h1 : '\n' ≠ c := by rintro rfl; simp [isNL] at hc
    have h2 : '\r' ≠ c := by rintro rfl; simp [isNL] at hc
    rw [recode]
    split
    · rename_i hx
      subst hx
      rcases h with rfl | rfl <;> simp [h1, h2]
    · simp

theorem recode_last {nl t : Str} {c : Char} (h : IsNewline nl) (hc : isNL c = false) :
    (recode nl t).getLast? = some c ↔ t.getLast? = some c := by
  have h1 : '\n' ≠ c := by rintro rfl; simp [isNL] at hc
  have h2 : '\r' ≠ c := by rintro rfl; simp [isNL] at hc
  rcases List.eq_nil_or_concat t with rfl | ⟨s, x, rfl⟩
  · simp [recode]
  · rw [List.concat_eq_append, recode_append]
    by_cases hx : x = '\n'
    · subst hx
      rcases h with rfl | rfl <;> simp [recode, h1, h2]
    · simp [recode, hx]

theorem quoteCond_recode {nl : Str} (h : IsNewline nl) {q : Char} (hq : isNL q = false) (s : Str) :
    quoteCond (recode nl s) q = quoteCond s q := by
  unfold quoteCond startsWithChar endsWithChar
  by_cases h0 : q = NUL
  · simp [h0]
  rw [if_neg h0, if_neg h0]
  have e1 := recode_head (t := s) h hq
  have e2 := recode_last (t := s) h hq
  match s with
  | [] => simp [recode]
  | [c] =>
    by_cases hc : c = '\n'
    · subst hc
      have h1 : '\n' ≠ q := by rintro rfl; simp [isNL] at hq
      have h2 : '\r' ≠ q := by rintro rfl; simp [isNL] at hq
      rcases h with rfl | rfl <;> simp [recode, h2]
    · simp [recode, hc]
  | a :: b :: s =>
    have hl : ¬ (recode nl (a :: b :: s)).length ≤ 1 := by
      have := le_recode_length h (a :: b :: s)
      simp at this ⊢
      omega
    rw [if_neg hl, if_neg (by simp)]
    simp only [e1, e2]

theorem saveCell_recode {nl : Str} (h : IsNewline nl) {q : Char} (hq : isNL q = false) (s : Str) (tr : Bool) :
    saveCell q (recode nl s) tr = (recode nl (saveCell q s tr).1, (saveCell q s tr).2) := by
  have hdrop : ∀ s : Str, s.head? = some q → (recode nl s).drop 1 = recode nl (s.drop 1) := by
    intro s hs
    cases s with
    | nil => cases hs
    | cons c s =>
      simp only [List.head?_cons, Option.some.injEq] at hs
      subst hs
      have : c ≠ '\n' := by rintro rfl; simp [isNL] at hq
      simp [recode, this]
  have key : (if quoteCond (recode nl s) q then ((((recode nl s).drop 1).dropLast : Str), true)
      else (recode nl s, false)) =
      (recode nl (if quoteCond s q then (((s.drop 1).dropLast : Str), true) else (s, false)).1,
        (if quoteCond s q then (((s.drop 1).dropLast : Str), true) else (s, false)).2) := by
    rw [quoteCond_recode h hq]
    split
    · rename_i hc
      unfold quoteCond startsWithChar endsWithChar at hc
      split at hc
      · cases hc
      split at hc
      · cases hc
      rename_i hlen
      simp only [Bool.and_eq_true, decide_eq_true_eq] at hc
      simp only [Prod.mk.injEq, and_true]
      rw [hdrop s hc.1]
      have hl : (s.drop 1).getLast? = some q := by
        cases s with
        | nil => cases hc.1
        | cons a s =>
          cases s with
          | nil => simp at hlen
          | cons b s => simpa using hc.2
      rcases List.eq_nil_or_concat (s.drop 1) with h0 | ⟨w, x, h0⟩
      · rw [h0] at hl; cases hl
      · rw [h0, List.concat_eq_append] at hl ⊢
        simp only [List.getLast?_append, List.getLast?_singleton, Option.some_or, Option.some.injEq] at hl
        subst hl
        have : x ≠ '\n' := by rintro rfl; simp [isNL] at hq
        rw [recode_snoc this]
        simp
    · rfl
  unfold saveCell
  simp only
  rw [key]
  generalize (if quoteCond s q then (((s.drop 1).dropLast : Str), true) else (s, false)) = r
  have e : startsWithChar (recode nl r.1) q = startsWithChar r.1 q := by
    unfold startsWithChar
    simp only [recode_head h hq]
  simp only [e]
  split
  · rename_i hc
    simp only [Bool.and_eq_true] at hc
    rw [hdrop r.1 (by simpa [startsWithChar] using hc.2)]
  · rfl

/-! ## Steps of the parser -/

/-- An error for the field size limit. -/
def LimErr (r : Except PErr β) : Prop := ∃ L, r = .error (.fieldLimit L)

/-- The second result is the first one, converted; or, if `Z` allows it, one of them is an error for
the field size limit. -/
def NlRel (f : β → γ) (Z : Prop) (r : Except PErr β) (r' : Except PErr γ) : Prop :=
  r' = r.map f ∨ Z ∧ (LimErr r ∨ LimErr r')

theorem NlRel.bind {δ ε : Type} {f : β → γ} {g : δ → ε} {Z : Prop} {r : Except PErr β} {r' : Except PErr γ}
    {k : β → Except PErr δ} {k' : γ → Except PErr ε} (h : NlRel f Z r r')
    (hk : ∀ x, r = .ok x → NlRel g Z (k x) (k' (f x))) : NlRel g Z (r >>= k) (r' >>= k') := by
  rcases h with rfl | ⟨hz, ⟨L, rfl⟩ | ⟨L, rfl⟩⟩
  · cases r with
    | error e => exact .inl rfl
    | ok x => exact hk x rfl
  · exact .inr ⟨hz, .inl ⟨L, rfl⟩⟩
  · exact .inr ⟨hz, .inr ⟨L, rfl⟩⟩

/-- The parser object with the text of the cells converted. -/
def PObj.recode (nl : Str) (f : α → α) (o : PObj α) : PObj α :=
  ⟨o.fields.map f, Spec.recode nl o.field, o.state⟩

/-- What the simulation needs to know: the characters of the dialect are not newlines, the cells are
converted by `f`, and `Z` holds unless the conversion preserves lengths. -/
structure NlSim (nl : Str) (f : α → α) (Z : Prop) (cfg : Cfg) (mk : Str → Bool → α) : Prop where
  isNl : IsNewline nl
  delim : isNL cfg.delimiter = false
  quote : isNL cfg.quotechar = false
  esc : isNL cfg.escapechar = false
  cell : ∀ s b, mk (Spec.recode nl s) b = f (mk s b)
  z : Z ∨ nl = ['\r']

section
variable {nl : Str} {f : α → α} {Z : Prop} {cfg : Cfg} {mk : Str → Bool → α}

theorem NlSim.save (S : NlSim nl f Z cfg mk) (o : PObj α) (tr : Bool) :
    saveField cfg mk (o.recode nl f) tr = (saveField cfg mk o tr).recode nl f := by
  unfold saveField PObj.recode
  simp only [saveCell_recode S.isNl S.quote, S.cell, List.map_append, List.map_cons, List.map_nil, Spec.recode]

theorem PObj.recode_to (o : PObj α) (s : PState) : (o.recode nl f).to s = (o.to s).recode nl f := rfl

theorem NlSim.add (S : NlSim nl f Z cfg mk) (o : PObj α) {c : Char} (hc : c ≠ '\n') :
    NlRel (PObj.recode nl f) Z (addChar cfg o c) (addChar cfg (o.recode nl f) c) := by
  unfold addChar
  have hr : (PObj.recode nl f { o with field := o.field ++ [c] }) =
      { o.recode nl f with field := (o.recode nl f).field ++ [c] } := by
    simp [PObj.recode, recode_snoc hc]
  rcases S.z with hz | rfl
  · by_cases h1 : (o.field.length : Int) ≥ cfg.fieldLimit
    · rw [if_pos h1]; exact .inr ⟨hz, .inl ⟨_, rfl⟩⟩
    by_cases h2 : ((o.recode nl f).field.length : Int) ≥ cfg.fieldLimit
    · rw [if_pos h2]; exact .inr ⟨hz, .inr ⟨_, rfl⟩⟩
    rw [if_neg h1, if_neg h2]
    left
    simp only [Except.map, hr]
  · have : (o.recode ['\r'] f).field.length = o.field.length := recode_length _
    rw [this]
    left
    split
    · rfl
    · simp only [Except.map, hr]

/-- The characters of a line break, one after the other. -/
def addAll (cfg : Cfg) : PObj α → Str → Except PErr (PObj α)
  | o, [] => .ok o
  | o, c :: s => addChar cfg o c >>= fun o => addAll cfg o s

theorem NlSim.addNl (S : NlSim nl f Z cfg mk) (o : PObj α) :
    NlRel (PObj.recode nl f) Z (addChar cfg o '\n') (addAll cfg (o.recode nl f) nl) := by
  have hr : (PObj.recode nl f { o with field := o.field ++ ['\n'] }) =
      { o.recode nl f with field := (o.recode nl f).field ++ nl } := by
    simp [PObj.recode, recode_append, Spec.recode]
  rcases S.isNl with rfl | rfl
  · have : (o.recode ['\r'] f).field.length = o.field.length := recode_length _
    unfold addAll addChar
    rw [this]
    left
    by_cases h1 : (o.field.length : Int) ≥ cfg.fieldLimit
    · rw [if_pos h1, if_pos h1]; rfl
    · rw [if_neg h1, if_neg h1]
      simp only [Except.map, hr]
      rfl
  · rcases S.z with hz | h
    · simp only [addAll]
      by_cases h1 : (o.field.length : Int) ≥ cfg.fieldLimit
      · unfold addChar; rw [if_pos h1]; exact .inr ⟨hz, .inl ⟨_, rfl⟩⟩
      · by_cases h2 : ((o.recode ['\r', '\n'] f).field.length : Int) ≥ cfg.fieldLimit
        · refine .inr ⟨hz, .inr ⟨cfg.fieldLimit, ?_⟩⟩
          rw [addChar, if_pos h2]; rfl
        · by_cases h3 : ((o.recode ['\r', '\n'] f).field.length : Int) + 1 ≥ cfg.fieldLimit
          · refine .inr ⟨hz, .inr ⟨cfg.fieldLimit, ?_⟩⟩
            rw [addChar, if_neg h2]
            simp only [bind, Except.bind]
            rw [addChar, if_pos (by simpa using h3)]
          · left
            rw [addChar, if_neg h2]
            simp only [bind, Except.bind]
            rw [addChar, if_neg (by simpa using h3), addChar, if_neg h1]
            simp only [Except.map, hr]
            simp
    · cases h

theorem NlSim.startField (S : NlSim nl f Z cfg mk) (o : PObj α) {u : Char} (hu : isNL u = false) :
    NlRel (PObj.recode nl f) Z (stepStartField cfg mk o u) (stepStartField cfg mk (o.recode nl f) u) := by
  have hn : u ≠ '\n' := by rintro rfl; simp [isNL] at hu
  unfold stepStartField
  split
  · left; rw [S.save]; rfl
  split
  · exact (S.add o hn).bind fun _ _ => .inl rfl
  split
  · exact .inl rfl
  split
  · left; rw [S.save]; rfl
  · exact (S.add o hn).bind fun _ _ => .inl rfl

theorem NlSim.inField (S : NlSim nl f Z cfg mk) (o : PObj α) {u : Char} (hu : isNL u = false) :
    NlRel (PObj.recode nl f) Z (stepInField cfg mk o u) (stepInField cfg mk (o.recode nl f) u) := by
  have hn : u ≠ '\n' := by rintro rfl; simp [isNL] at hu
  unfold stepInField
  split
  · left; rw [S.save]; rfl
  split
  · exact .inl rfl
  split
  · exact (S.add o hn).bind fun _ _ => .inl rfl
  split
  · left; rw [S.save]; rfl
  · exact S.add o hn

theorem NlSim.process (S : NlSim nl f Z cfg mk) (o : PObj α) {u v v' : Char} (hu : isNL u = false)
    (hv : v = cfg.quotechar ↔ v' = cfg.quotechar) (hE : o.state = .escapeInQuotedField → u ≠ NUL) :
    NlRel (PObj.recode nl f) Z (processChar cfg mk o u v) (processChar cfg mk (o.recode nl f) u v') := by
  have hn : u ≠ '\n' := by rintro rfl; simp [isNL] at hu
  have he : cfg.escapechar ≠ '\n' := by intro h; have := S.esc; rw [h] at this; simp [isNL] at this
  have hst : (o.recode nl f).state = o.state := rfl
  unfold processChar
  rw [hst]
  cases hs : o.state with
  | startRecord =>
    simp only
    split
    · exact .inl rfl
    split
    · exact .inl rfl
    · exact S.startField (o.to .startField) hu
  | startField => exact S.startField o hu
  | escapedChar =>
    simp only [hu]
    rw [if_neg Bool.false_ne_true, if_neg Bool.false_ne_true]
    have key : ∀ a : PObj α, NlRel (PObj.recode nl f) Z
        (if u = NUL then (do let o ← Except.ok a; .ok (PObj.to o .inField))
          else (do let o ← addChar cfg a u; .ok (o.to .inField)))
        (if u = NUL then (do let o ← Except.ok (a.recode nl f); .ok (PObj.to o .inField))
          else (do let o ← addChar cfg (a.recode nl f) u; .ok (o.to .inField))) := by
      intro a
      split
      · exact .inl rfl
      · exact (S.add a hn).bind fun _ _ => .inl rfl
    show NlRel _ _ (ite _ _ _) (ite (u ≠ NUL ∧ u ≠ cfg.delimiter ∧ u ≠ cfg.escapechar ∧ u ≠ cfg.quotechar) _ _)
    split
    · exact (S.add o he).bind fun a _ => key a
    · exact key o
  | afterEscapedCRNL =>
    simp only
    split
    · exact .inl rfl
    · exact S.inField o hu
  | inField => exact S.inField o hu
  | inQuotedField =>
    simp only
    split
    · exact .inl rfl
    split
    · exact .inl rfl
    split
    · simp only [hv]
      split
      · exact .inl rfl
      split
      · exact .inl rfl
      · exact (S.add o hn).bind fun _ _ => .inl rfl
    · exact S.add o hn
  | escapeInQuotedField =>
    have h0 := hE hs
    have h1 : (if u = NUL then '\n' else u) = u := if_neg h0
    simp only [h1]
    show NlRel _ _ (ite _ _ _) (ite (u ≠ cfg.escapechar ∧ u ≠ cfg.delimiter ∧ u ≠ cfg.quotechar ∧ u ≠ NUL) _ _)
    split
    · exact (S.add o he).bind fun a _ => (S.add a hn).bind fun _ _ => .inl rfl
    · exact (S.add o hn).bind fun _ _ => .inl rfl
  | quoteInQuotedField =>
    simp only
    split
    · exact (S.add o hn).bind fun _ _ => .inl rfl
    split
    · left; rw [S.save]; rfl
    split
    · left; rw [S.save]; rfl
    split
    · exact (S.add o hn).bind fun _ _ => .inl rfl
    · exact .inl rfl
  | eatCRNL =>
    simp only [hu]
    split
    · rename_i h; cases h
    split
    · exact .inl rfl
    · exact .inl rfl

theorem feedLine_one (o : PObj α) {c : Char} (hc : c ≠ NUL) :
    feedLine cfg mk o [c] = (processChar cfg mk o c NUL >>= fun o => processChar cfg mk o NUL NUL) := by
  simp only [feedLine, if_neg hc, List.headD_nil]
  cases processChar cfg mk o c NUL <;> rfl

theorem feedLine_cons (o : PObj α) {c : Char} (hc : c ≠ NUL) (rest : Str) :
    feedLine cfg mk o (c :: rest) =
      (processChar cfg mk o c (rest.headD NUL) >>= fun o => feedLine cfg mk o rest) := by
  rw [feedLine, if_neg hc]
  cases processChar cfg mk o c (rest.headD NUL) <;> rfl

theorem addChar_to (o : PObj α) (c : Char) (s : PState) :
    addChar cfg (o.to s) c = (addChar cfg o c).map (·.to s) := by
  unfold addChar
  show (if (o.field.length : Int) ≥ cfg.fieldLimit then _ else _) = _
  split <;> rfl

/-- The end of a line. -/
theorem NlSim.lineEnd (S : NlSim nl f Z cfg mk) (o : PObj α) (hE : o.state ≠ .escapedChar) :
    NlRel (PObj.recode nl f) Z (feedLine cfg mk o ['\n']) (feedLine cfg mk (o.recode nl f) nl) := by
  have hq : ∀ c, isNL c = true → c ≠ cfg.quotechar := fun c hc h => by
    rw [h, S.quote] at hc; cases hc
  have he : ∀ c, isNL c = true → c ≠ cfg.escapechar := fun c hc h => by
    rw [h, S.esc] at hc; cases hc
  have hd : ∀ c, isNL c = true → c ≠ cfg.delimiter := fun c hc h => by
    rw [h, S.delim] at hc; cases hc
  have hz : ∀ c, isNL c = true → c ≠ NUL := fun c hc h => by rw [h] at hc; revert hc; decide
  have h0 : '\n' ≠ NUL ∧ '\r' ≠ NUL := by decide
  -- a line break that ends the record
  have ends : ∀ (p : PObj α), (∀ c v, isNL c = true → processChar cfg mk o c v = .ok (p.to .eatCRNL)) →
      (∀ c v, isNL c = true → processChar cfg mk (o.recode nl f) c v = .ok ((p.recode nl f).to .eatCRNL)) →
      NlRel (PObj.recode nl f) Z (feedLine cfg mk o ['\n']) (feedLine cfg mk (o.recode nl f) nl) := by
    intro p h1 h2
    left
    have e : ∀ p : PObj α, processChar cfg mk (p.to .eatCRNL) NUL NUL = .ok (p.to .startRecord) := fun p => by
      simp [processChar, PObj.to, isNL, NUL]
    have e' : ∀ (p : PObj α) v, processChar cfg mk (p.to .eatCRNL) '\n' v = .ok (p.to .eatCRNL) := fun p v => by
      simp [processChar, PObj.to, isNL]
    rw [feedLine_one o h0.1, h1 _ _ (by decide)]
    show _ = Except.map _ (processChar cfg mk (p.to .eatCRNL) NUL NUL)
    rw [e]
    rcases S.isNl with rfl | rfl
    · rw [feedLine_one _ h0.2, h2 _ _ (by decide)]
      show processChar cfg mk ((p.recode _ f).to .eatCRNL) NUL NUL = _
      rw [e]; rfl
    · rw [feedLine_cons _ h0.2, h2 _ _ (by decide)]
      show feedLine cfg mk ((p.recode _ f).to .eatCRNL) ['\n'] = _
      rw [feedLine_one _ h0.1, e']
      show processChar cfg mk ((p.recode _ f).to .eatCRNL) NUL NUL = _
      rw [e]; rfl
  have quoted : ∀ (p : PObj α) (s : Str), p.state = .inQuotedField → (∀ c ∈ s, isNL c = true) →
      feedLine cfg mk p s = addAll cfg p s := by
    intro p s
    induction s generalizing p with
    | nil => intro hp _; simp [feedLine, addAll, processChar, hp]
    | cons c s ih =>
      intro hp hs
      have hc := hs c (by simp)
      have hc0 : c ≠ NUL := hz c hc
      rw [feedLine_cons _ hc0, addAll]
      have : processChar cfg mk p c (s.headD NUL) = addChar cfg p c := by
        unfold processChar
        rw [hp]
        simp only
        rw [if_neg hc0, if_neg (he c hc),
          if_neg (hq c hc)]
      rw [this]
      unfold addChar
      split
      · rfl
      · exact ih _ hp (fun x hx => hs x (by simp [hx]))
  have hnl : ∀ c ∈ nl, isNL c = true := by rcases S.isNl with rfl | rfl <;> simp [isNL]
  have hne : nl ≠ [] := by rcases S.isNl with rfl | rfl <;> simp
  have one : ∀ p : PObj α, addAll cfg p ['\n'] = addChar cfg p '\n' := fun p => by
    rw [addAll]
    cases addChar cfg p '\n' <;> rfl
  have hst : (o.recode nl f).state = o.state := rfl
  cases hs : o.state with
  | startRecord =>
    refine ends o ?_ ?_ <;> intro c v hc <;> simp only [processChar, hst, hs, hc] <;>
      rw [if_neg (hz c hc)] <;> rfl
  | startField =>
    refine ends (saveField cfg mk o false) ?_ ?_ <;> intro c v hc <;>
      simp only [processChar, hst, hs, hc, stepStartField, Bool.true_or, if_true, S.save] <;>
      rw [if_neg (hz c hc)]
  | escapedChar => exact absurd hs hE
  | afterEscapedCRNL =>
    refine ends (saveField cfg mk o false) ?_ ?_ <;> intro c v hc <;>
      simp only [processChar, hst, hs, hc, stepInField, Bool.true_or, if_true, S.save] <;>
      rw [if_neg (hz c hc), if_neg (hz c hc)]
  | inField =>
    refine ends (saveField cfg mk o false) ?_ ?_ <;> intro c v hc <;>
      simp only [processChar, hst, hs, hc, stepInField, Bool.true_or, if_true, S.save] <;>
      rw [if_neg (hz c hc)]
  | quoteInQuotedField =>
    refine ends (saveField cfg mk o false) ?_ ?_ <;> intro c v hc <;>
      simp only [processChar, hst, hs, hc, Bool.true_or, if_true, S.save] <;>
      rw [if_neg (hq c hc),
        if_neg (hd c hc),
        if_neg (hz c hc)]
  | eatCRNL =>
    refine ends o ?_ ?_ <;> intro c v hc <;> simp only [processChar, hst, hs, hc, if_true] <;>
      simp [PObj.to, ← hs, PObj.recode]
  | inQuotedField =>
    rw [quoted o _ hs (by simp [isNL]), quoted (o.recode nl f) nl hs hnl, one]
    exact S.addNl o
  | escapeInQuotedField =>
    -- the escapechar and the line break
    have step : ∀ (p : PObj α) (s : Str), p.state = .escapeInQuotedField → s ≠ [] → (∀ c ∈ s, isNL c = true) →
        feedLine cfg mk p s =
          (addChar cfg p cfg.escapechar >>= fun p => addAll cfg (p.to .inQuotedField) s) := by
      intro p s hp hs hc
      cases s with
      | nil => exact absurd rfl hs
      | cons c s =>
        have hc' := hc c (by simp)
        have hc0 : c ≠ NUL := hz c (hc _ (by simp))
        rw [feedLine_cons _ hc0]
        have : processChar cfg mk p c (s.headD NUL) =
            (addChar cfg p cfg.escapechar >>= fun p => addChar cfg (p.to .inQuotedField) c) := by
          unfold processChar
          rw [hp]
          simp only [if_neg hc0]
          rw [if_pos ⟨he c hc',
            hd c hc',
            hq c hc', hc0⟩]
          cases addChar cfg p cfg.escapechar with
          | error e => rfl
          | ok a =>
            show (addChar cfg a c >>= fun o => .ok (o.to .inQuotedField)) = addChar cfg (a.to .inQuotedField) c
            rw [addChar_to]
            cases addChar cfg a c <;> rfl
        rw [this]
        cases addChar cfg p cfg.escapechar with
        | error e => rfl
        | ok a =>
          show (addChar cfg (a.to .inQuotedField) c >>= fun o => feedLine cfg mk o s) =
            addAll cfg (a.to .inQuotedField) (c :: s)
          rw [addAll, addChar_to]
          cases addChar cfg a c with
          | error e => rfl
          | ok b => exact quoted _ s rfl (fun x hx => hc x (by simp [hx]))
    rw [step o _ hs (by simp) (by simp [isNL]), step (o.recode nl f) nl hs hne hnl]
    refine (S.add o (Ne.symm (he _ (by decide)))).bind fun p _ => ?_
    rw [one]
    exact S.addNl (p.to .inQuotedField)

/-! ## Lines and texts -/

/-- The states after an escapechar. -/
def PState.escaped : PState → Bool
  | .escapedChar => true
  | .escapeInQuotedField => true
  | _ => false

theorem addChar_state {o o' : PObj α} {c : Char} (h : addChar cfg o c = .ok o') : o'.state = o.state := by
  unfold addChar at h
  split at h
  · cases h
  · cases h; rfl

theorem stepStartField_escaped {o o' : PObj α} {u : Char} (h : stepStartField cfg mk o u = .ok o')
    (ho : o.state.escaped = false) (hs : o'.state.escaped = true) : u = cfg.escapechar ∧ u ≠ NUL := by
  unfold stepStartField at h
  split at h
  · cases h
    revert hs
    simp only [PObj.to]
    split <;> simp [PState.escaped]
  · rename_i h0
    have h0' : u ≠ NUL := by
      rintro rfl; simp at h0
    split at h
    · cases ha : addChar cfg o u with
      | error e => rw [ha] at h; cases h
      | ok a => rw [ha] at h; cases h; cases hs
    split at h
    · rename_i h1; exact ⟨h1, h0'⟩
    split at h
    · cases h
      rw [show (saveField cfg mk o false).state = o.state from rfl, ho] at hs
      cases hs
    · cases ha : addChar cfg o u with
      | error e => rw [ha] at h; cases h
      | ok a => rw [ha] at h; cases h; cases hs

theorem stepInField_escaped {o o' : PObj α} {u : Char} (h : stepInField cfg mk o u = .ok o')
    (ho : o.state.escaped = false) (hs : o'.state.escaped = true) : u = cfg.escapechar ∧ u ≠ NUL := by
  unfold stepInField at h
  split at h
  · cases h
    revert hs
    simp only [PObj.to]
    split <;> simp [PState.escaped]
  · rename_i h0
    have h0' : u ≠ NUL := by
      rintro rfl; simp at h0
    split at h
    · rename_i h1; exact ⟨h1, h0'⟩
    split at h
    · cases ha : addChar cfg o u with
      | error e => rw [ha] at h; cases h
      | ok a => rw [ha] at h; cases h; cases hs
    split at h
    · cases h; cases hs
    · rw [addChar_state h, ho] at hs; cases hs

/-- Only an escapechar leads to one of the states after an escapechar. -/
theorem processChar_escaped {o o' : PObj α} {u v : Char} (h : processChar cfg mk o u v = .ok o')
    (hs : o'.state.escaped = true) : u = cfg.escapechar ∧ u ≠ NUL := by
  unfold processChar at h
  cases ho : o.state with
  | startRecord =>
    rw [ho] at h
    simp only at h
    split at h
    · cases h; rw [ho] at hs; cases hs
    split at h
    · cases h; cases hs
    · exact stepStartField_escaped h rfl hs
  | startField =>
    rw [ho] at h
    exact stepStartField_escaped h (by rw [ho]; rfl) hs
  | escapedChar =>
    rw [ho] at h
    simp only [bind, Except.bind] at h
    exfalso
    repeat' split at h
    all_goals first | (cases h; done) | (cases h; cases hs; done)
  | afterEscapedCRNL =>
    rw [ho] at h
    simp only at h
    split at h
    · cases h; rw [ho] at hs; cases hs
    · exact stepInField_escaped h (by rw [ho]; rfl) hs
  | inField =>
    rw [ho] at h
    exact stepInField_escaped h (by rw [ho]; rfl) hs
  | inQuotedField =>
    rw [ho] at h
    simp only at h
    split at h
    · cases h; rw [ho] at hs; cases hs
    rename_i h0
    split at h
    · rename_i h1; exact ⟨h1, h0⟩
    exfalso
    split at h
    · split at h
      · cases h; cases hs
      split at h
      · cases h
      · cases ha : addChar cfg o u with
        | error e => rw [ha] at h; cases h
        | ok a => rw [ha] at h; cases h; cases hs
    · rw [addChar_state h, ho] at hs; cases hs
  | escapeInQuotedField =>
    rw [ho] at h
    simp only [bind, Except.bind] at h
    exfalso
    repeat' split at h
    all_goals first | (cases h; done) | (cases h; cases hs; done)
  | quoteInQuotedField =>
    rw [ho] at h
    simp only at h
    exfalso
    split at h
    · cases ha : addChar cfg o u with
      | error e => rw [ha] at h; cases h
      | ok a => rw [ha] at h; cases h; cases hs
    split at h
    · cases h; cases hs
    split at h
    · cases h
      revert hs
      simp only [PObj.to]
      split <;> simp [PState.escaped]
    split at h
    · cases ha : addChar cfg o u with
      | error e => rw [ha] at h; cases h
      | ok a => rw [ha] at h; cases h; cases hs
    · cases h
  | eatCRNL =>
    rw [ho] at h
    simp only at h
    exfalso
    split at h
    · cases h; rw [ho] at hs; cases hs
    split at h
    · cases h; cases hs
    · cases h

theorem feedLine_escaped {l : Str} {o o' : PObj α} (h : feedLine cfg mk o l = .ok o') : o'.state.escaped = false := by
  induction l generalizing o with
  | nil =>
    rw [feedLine] at h
    cases hs : o'.state.escaped with
    | false => rfl
    | true => exact absurd rfl (processChar_escaped h hs).2
  | cons c l ih =>
    rw [feedLine] at h
    split at h
    · cases h
    · split at h
      · cases h
      · exact ih h

/-- A line feed occurs at the end only. -/
def OneLine (l : Str) : Prop := ∀ a b, l = a ++ '\n' :: b → b = []

theorem NlSim.line (S : NlSim nl f Z cfg mk) : ∀ (l : Str) (o : PObj α), OneLine l → '\r' ∉ l →
    ¬ LineEndsWith cfg.escapechar l → (o.state.escaped = true → l ≠ [] ∧ l.head? ≠ some '\n') →
    NlRel (PObj.recode nl f) Z (feedLine cfg mk o l) (feedLine cfg mk (o.recode nl f) (recode nl l))
  | [], o, _, _, _, hE => by
    refine S.process o (by decide) Iff.rfl fun h => ?_
    exact absurd rfl (hE (by rw [h]; rfl)).1
  | c :: l, o, h1, h2, h3, hE => by
    by_cases hc : c = '\n'
    · subst hc
      obtain rfl := h1 [] l rfl
      rw [show recode nl ['\n'] = nl by simp [recode]]
      refine S.lineEnd o fun h => ?_
      exact (hE (by rw [h]; rfl)).2 rfl
    · have hcr : c ≠ '\r' := fun h => h2 (by simp [h])
      have hcn : isNL c = false := by simp [isNL, hc, hcr]
      rw [recode, if_neg hc]
      by_cases h0 : c = NUL
      · subst h0
        left
        simp [feedLine, Except.map]
      show NlRel _ _ _ (feedLine cfg mk _ (c :: recode nl l))
      rw [feedLine_cons _ h0, feedLine_cons _ h0]
      refine (S.process o hcn ?_ fun _ => h0).bind fun o' ho' => ?_
      · cases l with
        | nil => rfl
        | cons x l =>
          rw [recode]
          split
          · rename_i hx
            subst hx
            have q1 : '\n' ≠ cfg.quotechar := by
              intro h; have := S.quote; rw [← h] at this; cases this
            have q2 : '\r' ≠ cfg.quotechar := by
              intro h; have := S.quote; rw [← h] at this; cases this
            rcases S.isNl with rfl | rfl <;> simp [q1, q2]
          · simp
      · refine NlSim.line S l o' (fun a b hab => h1 (c :: a) b (by rw [hab]; rfl))
          (fun h => h2 (by simp [h])) ?_ ?_
        · rintro ⟨a, b, hab, hb⟩
          exact h3 ⟨c :: a, b, by rw [hab]; rfl, hb⟩
        · intro hs
          have hce := (processChar_escaped ho' hs).1
          constructor
          · rintro rfl
            exact h3 ⟨[], [], by simp [hce], .inl rfl⟩
          · intro hh
            exact h3 ⟨[], l, by simp [hce], .inr hh⟩

/-- The outcome of a call, converted. -/
def Outcome.recode (f : α → α) : Outcome α → Outcome α
  | .row r => .row (r.map f)
  | .stop => .stop
  | .error e => .error e

/-- The items, converted. -/
def recodeLines (nl : Str) (ls : List Str) : List Item := strItems (ls.map (Spec.recode nl))

theorem NlSim.next (S : NlSim nl f Z cfg mk) : ∀ (ls : List Str) (o : PObj α),
    (∀ l ∈ ls, OneLine l ∧ '\r' ∉ l ∧ ¬ LineEndsWith cfg.escapechar l ∧ l ≠ []) → o.state.escaped = false →
    (∃ out rest, nextRowFrom cfg mk o (strItems ls) = (out, strItems rest) ∧ rest <:+ ls ∧
      nextRowFrom cfg mk (o.recode nl f) (recodeLines nl ls) = (out.recode f, recodeLines nl rest)) ∨
    Z ∧ ∃ L, (nextRowFrom cfg mk o (strItems ls)).1 = .error (.fieldLimit L) ∨
      (nextRowFrom cfg mk (o.recode nl f) (recodeLines nl ls)).1 = .error (.fieldLimit L)
  | [], o, _, _ => by
    left
    simp only [strItems, recodeLines, List.map_nil, nextRowFrom]
    have e1 : (o.recode nl f).field ≠ [] ↔ o.field ≠ [] := not_congr (recode_eq_nil S.isNl)
    have e2 : (o.recode nl f).state = o.state := rfl
    simp only [e1, e2]
    split
    · split
      · exact ⟨_, [], rfl, List.suffix_rfl, rfl⟩
      · refine ⟨_, [], rfl, List.suffix_rfl, ?_⟩
        rw [S.save]; rfl
    · exact ⟨_, [], rfl, List.suffix_rfl, rfl⟩
  | l :: ls, o, hl, ho => by
    simp only [strItems, recodeLines, List.map_cons, nextRowFrom]
    obtain ⟨h1, h2, h3, h4⟩ := hl l (by simp)
    rcases S.line l o h1 h2 h3 (fun h => by rw [ho] at h; cases h) with h | ⟨hz, ⟨L, h⟩ | ⟨L, h⟩⟩
    · rw [h]
      cases hr : feedLine cfg mk o l with
      | error e => exact .inl ⟨_, ls, rfl, List.suffix_cons _ _, rfl⟩
      | ok o' =>
        simp only [Except.map]
        have e2 : (o'.recode nl f).state = o'.state := rfl
        rw [e2]
        split
        · exact .inl ⟨_, ls, rfl, List.suffix_cons _ _, rfl⟩
        · rcases NlSim.next S ls o' (fun x hx => hl x (by simp [hx])) (feedLine_escaped hr) with
            ⟨out, rest, a1, a2, a3⟩ | h5
          · exact .inl ⟨out, rest, a1, a2.trans (List.suffix_cons _ _), a3⟩
          · exact .inr h5
    · exact .inr ⟨hz, L, .inl (by rw [h])⟩
    · exact .inr ⟨hz, L, .inr (by rw [h])⟩

/-- The result of a parse, converted. -/
def recodeRows (f : α → α) (p : List (List α) × Option PErr) : List (List α) × Option PErr :=
  (p.1.map (·.map f), p.2)

theorem NlSim.rows (S : NlSim nl f Z cfg mk) : ∀ (n : Nat) (ls : List Str),
    (∀ l ∈ ls, OneLine l ∧ '\r' ∉ l ∧ ¬ LineEndsWith cfg.escapechar l ∧ l ≠ []) →
    parseRowsAux cfg mk n (recodeLines nl ls) = recodeRows f (parseRowsAux cfg mk n (strItems ls)) ∨
    Z ∧ ∃ L, (parseRowsAux cfg mk n (strItems ls)).2 = some (.fieldLimit L) ∨
      (parseRowsAux cfg mk n (recodeLines nl ls)).2 = some (.fieldLimit L)
  | 0, _, _ => .inl rfl
  | n + 1, ls, hl => by
    simp only [parseRowsAux, nextRow]
    have e0 : (PObj.init : PObj α) = (PObj.init : PObj α).recode nl f := rfl
    rcases S.next ls PObj.init hl rfl with ⟨out, rest, h1, h2, h3⟩ | ⟨hz, L, h | h⟩
    · rw [← e0] at h3
      rw [h1, h3]
      cases out with
      | stop => exact .inl rfl
      | error e => exact .inl rfl
      | row r =>
        simp only [Outcome.recode]
        rcases NlSim.rows S n rest (fun x hx => hl x (h2.subset hx)) with h4 | ⟨hz, L, h4⟩
        · left; rw [h4]; rfl
        · exact .inr ⟨hz, L, h4⟩
    · refine .inr ⟨hz, L, .inl ?_⟩
      rcases hn : nextRowFrom cfg mk PObj.init (strItems ls) with ⟨out, rest⟩
      rw [hn] at h
      simp only at h
      subst h
      rfl
    · refine .inr ⟨hz, L, .inr ?_⟩
      rw [← e0] at h
      rcases hn : nextRowFrom cfg mk PObj.init (recodeLines nl ls) with ⟨out, rest⟩
      rw [hn] at h
      simp only at h
      subst h
      rfl

end

theorem linesUniv_recode {nl : Str} (h : IsNewline nl) : ∀ t : Str, '\r' ∉ t →
    linesUniv (recode nl t) = (linesUniv t).map (recode nl)
  | [], _ => rfl
  | c :: t, hr => by
    simp only [List.mem_cons, not_or] at hr
    have ih := linesUniv_recode h t hr.2
    by_cases hc : c = '\n'
    · subst hc
      rw [recode, if_pos rfl, linesUniv]
      have e1 : lineEndAfter '\n' t = true := by simp [lineEndAfter]
      rw [if_pos e1, List.map_cons, ← ih]
      rcases h with rfl | rfl
      · have e2 : (recode ['\r'] t).head? ≠ some '\n' := by
          cases t with
          | nil => simp [recode]
          | cons x t =>
            rw [recode]
            split
            · simp
            · rename_i hx; simpa using hx
        show linesUniv ('\r' :: recode ['\r'] t) = _
        rw [linesUniv, if_pos (by simp [lineEndAfter, e2])]
        rfl
      · show linesUniv ('\r' :: '\n' :: recode ['\r', '\n'] t) = _
        rw [linesUniv, if_neg (by simp [lineEndAfter]), linesUniv, if_pos (by simp [lineEndAfter])]
        rfl
    · rw [recode, if_neg hc, linesUniv]
      have e1 : ∀ r : Str, lineEndAfter c r = false := by
        intro r
        simp [lineEndAfter, hc, Ne.symm hr.1]
      show linesUniv (c :: recode nl t) = _
      rw [linesUniv, e1, e1, if_neg Bool.false_ne_true, if_neg Bool.false_ne_true, ih]
      cases linesUniv t with
      | nil => simp [recode, hc]
      | cons l ls => simp [recode, hc]

theorem linesUniv_head_head : ∀ t : Str, (linesUniv t).head?.bind List.head? = t.head?
  | [] => rfl
  | c :: t => by
    rw [linesUniv]
    split
    · rfl
    · cases linesUniv t <;> rfl

theorem linesUniv_lines {e : Char} (hen : e ≠ '\n') : ∀ t : Str, '\r' ∉ t → ¬ LineEndsWith e t →
    ∀ l ∈ linesUniv t, OneLine l ∧ '\r' ∉ l ∧ ¬ LineEndsWith e l ∧ l ≠ []
  | [], _, _ => by simp [linesUniv]
  | c :: t, hr, he => by
    have he' : ¬ LineEndsWith e t := by
      rintro ⟨a, b, hab, hb⟩
      exact he ⟨c :: a, b, by rw [hab]; rfl, hb⟩
    simp only [List.mem_cons, not_or] at hr
    have ih := linesUniv_lines hen t hr.2 he'
    have hhead := linesUniv_head_head t
    rw [linesUniv]
    intro l hl
    split at hl
    · rename_i hc
      have hc' : c = '\n' := by
        simp only [lineEndAfter, Bool.or_eq_true, decide_eq_true_eq, Bool.and_eq_true] at hc
        rcases hc with hc | ⟨hc, _⟩
        · exact hc
        · exact absurd hc.symm hr.1
      subst hc'
      rcases List.mem_cons.1 hl with rfl | hl
      · refine ⟨?_, by decide, ?_, by simp⟩
        · rintro a b hab
          cases a with
          | nil => simpa using hab.symm
          | cons x a => simp at hab
        · rintro ⟨a, b, hab, hb⟩
          cases a with
          | nil =>
            simp only [List.nil_append, List.cons.injEq] at hab
            exact hen hab.1.symm
          | cons x a => simp at hab
      · exact ih l hl
    · rename_i hc
      have hcn : c ≠ '\n' := by rintro rfl; simp [lineEndAfter] at hc
      cases hL : linesUniv t with
      | nil =>
        rw [hL] at hl hhead
        simp only [List.mem_singleton] at hl
        subst hl
        have ht : t = [] := by
          cases t with
          | nil => rfl
          | cons x t => simp at hhead
        subst ht
        refine ⟨?_, by simpa using hr.1, he, by simp⟩
        intro a b hab
        cases a with
        | nil => simp at hab; exact absurd hab.1 hcn
        | cons x a => simp at hab
      | cons l0 ls =>
        rw [hL] at hl ih hhead
        simp only [List.mem_cons] at hl
        rcases hl with rfl | hl
        · obtain ⟨h1, h2, h3, h4⟩ := ih l0 (by simp)
          refine ⟨?_, by simp [hr.1, h2], ?_, by simp⟩
          · intro a b hab
            cases a with
            | nil => simp at hab; exact absurd hab.1 hcn
            | cons x a =>
              simp only [List.cons_append, List.cons.injEq] at hab
              exact h1 a b hab.2
          · rintro ⟨a, b, hab, hb⟩
            cases a with
            | nil =>
              simp only [List.nil_append, List.cons.injEq] at hab
              obtain ⟨rfl, rfl⟩ := hab
              rcases hb with rfl | hb
              · exact h4 rfl
              · refine he ⟨[], t, rfl, .inr ?_⟩
                rw [← hhead]; simpa using hb
            | cons x a =>
              simp only [List.cons_append, List.cons.injEq] at hab
              exact h3 ⟨a, b, hab.2, hb⟩
        · exact ih l (by simp [hl])

/-- The parser on a text with another newline convention. -/
theorem NlSim.text {nl : Str} {f : α → α} {Z : Prop} {cfg : Cfg} {mk : Str → Bool → α}
    (S : NlSim nl f Z cfg mk) (t : Str) (hr : '\r' ∉ t) (he : ¬ LineEndsWith cfg.escapechar t) :
    parseText cfg mk (recode nl t) = recodeRows f (parseText cfg mk t) ∨
    Z ∧ ∃ L, (parseText cfg mk t).2 = some (.fieldLimit L) ∨
      (parseText cfg mk (recode nl t)).2 = some (.fieldLimit L) := by
  have hen : cfg.escapechar ≠ '\n' := by
    intro h; have := S.esc; rw [h] at this; cases this
  unfold parseText
  rw [linesUniv_recode S.isNl t hr]
  unfold parseRows
  have := S.rows ((strItems (linesUniv t)).length + 1) (linesUniv t) (linesUniv_lines hen t hr he)
  simpa [recodeLines, strItems] using this

end Clever
