import Verif.Model.DictIO

/-!
# Calls on a `DictReader`
-/

namespace Clever.Spec

/-- What a reader object gives when `next` is called again and again: rows and exceptions, and `StopIteration` for ever
after these. -/
inductive Gives (limit : Int) : Reader → List (Except PyExc (List Str)) → Prop where
  | stop {rd rd' : Reader} (h : rd.next limit = (rd', .error .stopIteration))
      (h' : rd'.next limit = (rd', .error .stopIteration)) : Gives limit rd []
  | row {rd rd' : Reader} {row : List Str} {outs : List (Except PyExc (List Str))} (h : rd.next limit = (rd', .ok row))
      (t : Gives limit rd' outs) : Gives limit rd (.ok row :: outs)
  | err {rd rd' : Reader} {e : PyExc} {outs : List (Except PyExc (List Str))} (h : rd.next limit = (rd', .error e))
      (he : e ≠ .stopIteration) (t : Gives limit rd' outs) : Gives limit rd (.error e :: outs)

/-- A use of a `DictReader`: `next(r)`, `r.fieldnames`, `r.fieldnames = f`. -/
inductive DCall where
  | next
  | names
  | setNames (f : List Key)
deriving DecidableEq, Repr

/-- What a use gives. -/
inductive DResult where
  | dict (d : List (Key × DVal))
  | names (f : Option (List Key))
  | done
  | raised (e : PyExc)
deriving DecidableEq, Repr

/-- Rows that are not blank, and exceptions, that are left after the blank rows at the beginning. -/
def pastBlank : List (Except PyExc (List Str)) → List (Except PyExc (List Str))
  | .ok [] :: outs => pastBlank outs
  | outs => outs

/-- What `next` should give, with the field names known. -/
def dictStep (restkey : Key) (f : List Key) (outs : List (Except PyExc (List Str))) :
    DResult × List (Except PyExc (List Str)) :=
  match pastBlank outs with
  | [] => (.raised .stopIteration, [])
  | .ok row :: outs => (.dict (rowDict f restkey row), outs)
  | .error e :: outs => (.raised e, outs)

/-- What a sequence of uses should give: the first row that is looked at while the field names are not known is the
header, all others that are not blank are made into dictionaries with the field names known at that time. -/
def dictCalls (restkey : Key) : Option (List Key) → List (Except PyExc (List Str)) → List DCall → List DResult
  | _, _, [] => []
  | _, outs, .setNames f :: cs => .done :: dictCalls restkey (some f) outs cs
  | some f, outs, .names :: cs => .names (some f) :: dictCalls restkey (some f) outs cs
  | none, [], .names :: cs => .names none :: dictCalls restkey none [] cs
  | none, .ok h :: outs, .names :: cs => .names (some (h.map some)) :: dictCalls restkey (some (h.map some)) outs cs
  | none, .error e :: outs, .names :: cs => .raised e :: dictCalls restkey none outs cs
  | some f, outs, .next :: cs =>
    (dictStep restkey f outs).1 :: dictCalls restkey (some f) (dictStep restkey f outs).2 cs
  | none, [], .next :: cs => .raised .stopIteration :: dictCalls restkey none [] cs
  | none, .ok h :: outs, .next :: cs =>
    (dictStep restkey (h.map some) outs).1 ::
      dictCalls restkey (some (h.map some)) (dictStep restkey (h.map some) outs).2 cs
  | none, .error e :: outs, .next :: cs => .raised e :: dictCalls restkey none outs cs

end Clever.Spec

namespace Clever

open Spec

/-- One use of a `DictReader`, clevercsv/dict_read_write.py:67-114; the setter is at 93-95. -/
def DictReader.call (r : DictReader) (limit : Int) : DCall → DictReader × DResult
  | .next =>
    match r.next limit with
    | (r', .ok d) => (r', .dict d)
    | (r', .error e) => (r', .raised e)
  | .names =>
    match r.getFieldnames limit with
    | (r', .ok f) => (r', .names f)
    | (r', .error e) => (r', .raised e)
  | .setNames f => ({ r with fieldnames := some f }, .done)

/-- A sequence of uses. -/
def DictReader.calls (limit : Int) : DictReader → List DCall → List DResult
  | _, [] => []
  | r, c :: cs => (r.call limit c).2 :: DictReader.calls limit (r.call limit c).1 cs

end Clever
