import Verif.Model.Reader
import Verif.Proofs.ParseApi

/-!
# The reader object and the parser
-/

namespace Clever

/-- The rows and the error of the parser as a generator. -/
def rowsGen (p : List (List Str) × Option PErr) : Gen (List Str) := (p.1, p.2.map PyExc.parse)

theorem readAux_stream (limit : Int) (cfg : Cfg) (d : SimpleDialect) (n : Nat) :
    ∀ (items own : List Item) (k : Nat),
    Reader.readAux limit n ⟨.stream items, d, k, some ⟨cfg, own⟩⟩ =
      rowsGen (parseRowsAux cfg mkPlain n items) := by
  induction n with
  | zero => intros; rfl
  | succ n ih =>
    intro items own k
    simp only [Reader.readAux, Reader.next, Reader.nextGen, parseRowsAux]
    rcases h : nextRow cfg mkPlain items with ⟨out, rest⟩
    cases out with
    | row r => simp [ih, rowsGen]
    | stop => rfl
    | error e => rfl

theorem readAux_seq (limit : Int) (cfg : Cfg) (d : SimpleDialect) (n : Nat) (all : List Item) :
    ∀ (own : List Item) (k : Nat),
    Reader.readAux limit n ⟨.seq all, d, k, some ⟨cfg, own⟩⟩ =
      rowsGen (parseRowsAux cfg mkPlain n own) := by
  induction n with
  | zero => intros; rfl
  | succ n ih =>
    intro own k
    simp only [Reader.readAux, Reader.next, Reader.nextGen, parseRowsAux]
    rcases h : nextRow cfg mkPlain own with ⟨out, rest⟩
    cases out with
    | row r => simp [ih, rowsGen]
    | stop => rfl
    | error e => rfl

/-- Looping over a fresh reader gives the rows of the parser, for either kind of source. -/
theorem readAll_eq (limit : Int) (src : Source) (d : SimpleDialect) (k : Nat)
    (g : Option ParserGen) :
    (⟨src, d, k, g⟩ : Reader).readAll limit = parseData limit d mkPlain src.items := by
  simp only [Reader.readAll, Reader.iter, parseData, bind, Except.bind, pure, Except.pure]
  cases h : d.cfg limit with
  | error e => rfl
  | ok cfg =>
    cases src with
    | stream items => exact readAux_stream limit cfg d _ items _ _
    | seq items => exact readAux_seq limit cfg d _ items items _

theorem validate_dialectOf (d q e : Option Char) (strict : Bool) :
    (dialectOf d q e strict).validate = .ok () := by
  cases d <;> cases q <;> cases e <;> rfl

theorem setParams_none (d : SimpleDialect) : d.setParams {} = d := rfl

theorem makeSimpleDialect_dialectOf (d q e : Option Char) (strict : Bool) :
    makeSimpleDialect (.simple (dialectOf d q e strict)) {} = .ok (dialectOf d q e strict) := by
  simp only [makeSimpleDialect, baseDialect, setParams_none, validate_dialectOf, bind, Except.bind,
    pure, Except.pure]

theorem getDialect_excel : getDialect "excel" = .ok csvExcel := by simp [getDialect]

theorem makeSimpleDialect_excel :
    makeSimpleDialect (.name "excel") {} = .ok (dialectOf (some ',') (some '"') none) := by
  simp only [makeSimpleDialect, baseDialect, getDialect_excel, bind, Except.bind]
  rfl

/-- Reading a text through the reader object. -/
theorem readText_of (limit : Int) (hl : InLong limit) (arg : DialectArg) (f : FmtParams)
    (d q e : Option Char) (strict : Bool)
    (h : makeSimpleDialect arg f = .ok (dialectOf d q e strict)) (text : Str) :
    readText limit arg f text =
      (rowsGen (parseText (cfgOf d q e limit strict) mkPlain text)).toList := by
  simp only [readText, mkReader, h, bind, Except.bind, pure, Except.pure, readAll_eq, Source.items,
    parseData, dialectOf_cfg d q e strict hl]
  rfl

end Clever
