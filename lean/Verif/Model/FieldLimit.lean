import Verif.Basic

/-!
# `field_size_limit` (clevercsv/cparser_util.py:23-46)
-/

namespace Clever

/-- An argument of `field_size_limit`: an `int` (or `bool`), or anything else. -/
inductive LimitArg where
  | int (n : Int)
  | other
deriving DecidableEq, Repr

/-- `_FIELD_SIZE_LIMIT` initially, clevercsv/cparser_util.py:23. -/
def initialLimit : Int := 128 * 1024

/-- `field_size_limit(*args, **kwargs)`, clevercsv/cparser_util.py:26-46.  `all_args` are the values
of the positional and keyword arguments; the first component is `_FIELD_SIZE_LIMIT` afterwards. -/
def fieldSizeLimit (cur : Int) (allArgs : List LimitArg) : Int × Except PyExc Int :=
  match allArgs with
  | [] => (cur, .ok cur)
  | [.int n] => (n, .ok cur)
  | [.other] => (cur, .error (.typeError "limit must be an integer"))
  | _ :: _ :: _ => (cur, .error (.typeError "field_size_limit expected at most 1 arguments"))

/-- A history of calls: the results, and the final value. -/
def fieldSizeLimitRun (cur : Int) : List (List LimitArg) → Int × List (Except PyExc Int)
  | [] => (cur, [])
  | a :: as =>
    let r := fieldSizeLimit cur a
    let rest := fieldSizeLimitRun r.1 as
    (rest.1, r.2 :: rest.2)

end Clever
