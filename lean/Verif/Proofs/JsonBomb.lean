import Verif.Proofs.DetectErrors
import Verif.Model.NormalForm

/-! # Texts on which detection raises -/

namespace Clever

open Spec
open Props (C04_unquoted_is_split C10_same_cells)

/-! ## JSON values that are nested too deeply, and long integers -/

theorem jWs_id {c : Char} (hc : ¬ (c = ' ' ∨ c = '\t' ∨ c = '\n' ∨ c = '\r')) (s : Str) :
    jWs (c :: s) = c :: s := by rw [jWs, if_neg hc]

theorem jValue_brackets (env : PyEnv) : ∀ (d n k : Nat) (rest : Str), d < k → 2 * d + 1 ≤ n →
    jValue env n d (List.replicate k '[' ++ rest) = .error .recursion := by
  intro d
  induction d with
  | zero =>
    intro n k rest hk hn
    obtain ⟨k, rfl⟩ : ∃ j, k = j + 1 := ⟨k - 1, by omega⟩
    obtain ⟨n, rfl⟩ : ∃ j, n = j + 1 := ⟨n - 1, by omega⟩
    simp [List.replicate_succ, jValue]
  | succ d ih =>
    intro n k rest hk hn
    obtain ⟨k, rfl⟩ : ∃ j, k = j + 2 := ⟨k - 2, by omega⟩
    obtain ⟨n, rfl⟩ : ∃ j, n = j + 2 := ⟨n - 2, by omega⟩
    have h := ih n (k + 1) rest (by omega) (by omega)
    rw [List.replicate_succ, List.cons_append] at h
    rw [List.replicate_succ, List.replicate_succ, List.cons_append, List.cons_append, jValue]
    rw [jWs_id (by decide)]
    simp only [Char.reduceEq, if_false, if_true]
    rw [jElements, h]

/-- The text `"":` with what follows. -/
def bombKey (v : Str) : Str := '"' :: '"' :: ':' :: v

theorem jsonLoads_bombKey (env : PyEnv) {c : Char} {v : Str} {e : JFail}
    (hc : ¬ (c = ' ' ∨ c = '\t' ∨ c = '\n' ∨ c = '\r'))
    (h0 : 0 < env.jsonDepth)
    (h : ∀ n, 2 * v.length + 1 ≤ n → jValue env n (env.jsonDepth - 1) (c :: v) = .error e) :
    jsonLoads env ('{' :: bombKey (c :: v)) = .error e := by
  unfold jsonLoads bombKey
  rw [jWs_id (by decide)]
  obtain ⟨d, hd⟩ : ∃ d, env.jsonDepth = d + 1 := ⟨env.jsonDepth - 1, by omega⟩
  rw [hd] at h ⊢
  simp only [List.length_cons, Nat.add_sub_cancel] at h ⊢
  obtain ⟨n, hn⟩ : ∃ n, 2 * (v.length + 1 + 1 + 1 + 1 + 1) + 1 = n + 2 := ⟨2 * v.length + 9, by omega⟩
  rw [hn, jValue, jWs_id (by decide)]
  simp only [Char.reduceEq, if_false, if_true]
  rw [jMembers]
  have hs : jString .text ('"' :: ':' :: c :: v) = .ok (':' :: c :: v) := by simp [jString]
  rw [hs]
  simp only
  rw [jWs_id (by decide)]
  simp only [if_true]
  rw [jWs_id hc, h n (by omega)]

/-- `{"":[[[...[}` with more brackets than the recursion limit allows. -/
def deepText (env : PyEnv) : Str := '{' :: bombKey (List.replicate (env.jsonDepth + 1) '[') ++ ['}']

theorem isJsonObj_deep (env : PyEnv) : isJsonObj env (deepText env) = .error .recursionError := by
  have hl : jsonLoads env (deepText env) = .error .recursion := by
    by_cases h0 : env.jsonDepth = 0
    · unfold jsonLoads deepText
      rw [h0, List.cons_append, jWs_id (by decide)]
      simp [jValue]
    · unfold deepText
      have : bombKey (List.replicate (env.jsonDepth + 1) '[') ++ ['}'] =
          bombKey ('[' :: (List.replicate env.jsonDepth '[' ++ ['}'])) := by
        simp [bombKey, List.replicate_succ]
      rw [List.cons_append, this]
      refine jsonLoads_bombKey env (by decide) (by omega) fun n hn => ?_
      have := jValue_brackets env (env.jsonDepth - 1) n (env.jsonDepth + 1) ['}'] (by omega) (by
        simp at hn; omega)
      rwa [List.replicate_succ, List.cons_append] at this
  unfold isJsonObj
  rw [hl]
  have h1 : (deepText env).head? = some '{' := rfl
  have h2 : endsWith1 (deepText env) '}' = true := by
    unfold endsWith1 deepText
    rw [List.getLast?_append]
    rfl
  simp [h1, h2]

/-- `{"":111...1}` with more digits than `sys.get_int_max_str_digits()`. -/
def longIntText (env : PyEnv) : Str := '{' :: bombKey (List.replicate (env.maxStrDigits + 1) '1') ++ ['}']

theorem jScalar_ones (env : PyEnv) (h : env.maxStrDigits ≠ 0) :
    jScalar env (List.replicate (env.maxStrDigits + 1) '1' ++ ['}']) = .error .intLimit := by
  have hd : jDigits (List.replicate (env.maxStrDigits + 1) '1' ++ ['}']) =
      some (List.replicate (env.maxStrDigits + 1) '1', ['}']) := by
    have h1 : isDig '1' = true := by decide
    have h2 : isDig '}' = false := by decide
    have ht : ∀ n, (List.replicate n '1' ++ ['}']).takeWhile isDig = List.replicate n '1' ∧
        (List.replicate n '1' ++ ['}']).dropWhile isDig = ['}'] := by
      intro n
      induction n with
      | zero => simp [h2]
      | succ n ih => simp [List.replicate_succ, h1, ih]
    rw [List.replicate_succ, List.cons_append, jDigits]
    simp [h1, ht]
  unfold jScalar
  have hj : ∀ p : Str, (∃ x r, p = x :: r ∧ x ≠ '1') →
      jLit p (List.replicate (env.maxStrDigits + 1) '1' ++ ['}']) = none := by
    rintro p ⟨x, r, rfl, hx⟩
    rw [List.replicate_succ, List.cons_append, jLit, if_neg hx]
  rw [hj "null".toList ⟨'n', _, rfl, by decide⟩, hj "true".toList ⟨'t', _, rfl, by decide⟩, hj "false".toList ⟨'f', _, rfl, by decide⟩,
    hj "NaN".toList ⟨'N', _, rfl, by decide⟩, hj "Infinity".toList ⟨'I', _, rfl, by decide⟩, hj "-Infinity".toList ⟨'-', _, rfl, by decide⟩,
    hj "-".toList ⟨'-', _, rfl, by decide⟩]
  simp only
  unfold jNumber
  rw [hd]
  have hf : (jFraction ['}']).1 = false := by decide
  simp [hf, h]

theorem isJsonObj_longInt (env : PyEnv) (h0 : 0 < env.jsonDepth) (h : env.maxStrDigits ≠ 0) :
    isJsonObj env (longIntText env) =
      .error (.valueError "Exceeds the limit for integer string conversion") := by
  have hl : jsonLoads env (longIntText env) = .error .intLimit := by
    unfold longIntText
    have : bombKey (List.replicate (env.maxStrDigits + 1) '1') ++ ['}'] =
        bombKey ('1' :: (List.replicate env.maxStrDigits '1' ++ ['}'])) := by
      simp [bombKey, List.replicate_succ]
    rw [List.cons_append, this]
    refine jsonLoads_bombKey env (by decide) h0 fun n hn => ?_
    obtain ⟨n, rfl⟩ : ∃ j, n = j + 1 := ⟨n - 1, by omega⟩
    have := jScalar_ones env h
    rw [List.replicate_succ, List.cons_append] at this
    simp only [jValue, Char.reduceEq, if_false]
    exact this
  unfold isJsonObj
  rw [hl]
  have h1 : (longIntText env).head? = some '{' := rfl
  have h2 : endsWith1 (longIntText env) '}' = true := by
    unfold endsWith1 longIntText
    rw [List.getLast?_append]
    rfl
  simp [h1, h2]

/-! ## Detection on a text in braces -/

/-- The characters allowed between the braces. -/
def BraceChar (c : Char) : Prop :=
  c.toNat < 128 ∧ c ≠ NUL ∧ c ≠ '\n' ∧ c ≠ '\r' ∧ c ≠ '.' ∧ c ≠ 'l' ∧ c ≠ '@' ∧ c ≠ '$' ∧ c ≠ '/' ∧
    c ≠ ',' ∧ c ≠ ';' ∧ c ≠ '|' ∧ c ≠ '\t'

/-- One line, without delimiter and quotechar, is one cell. -/
theorem parse_one_line {limit : Int} (hl : InLong limit) {t : Str} (hne : t ≠ []) (hnul : NUL ∉ t)
    (hnl : ∀ c ∈ t, isNL c = false) (hlim : (t.length : Int) ≤ limit) :
    ∃ b, parseStringQuoted limit (mkDialect [] [] []) t = ([[(t, b)]], none) := by
  have hd0 : mkDialect [] [] [] = dialectOf none none none := rfl
  have hcfg : parseString limit (dialectOf none none none) t =
      parseString limit (dialectOf (some NUL) none none) t := by
    rw [parseString_eq _ _ _ _ hl, parseString_eq _ _ _ _ hl]
    rfl
  have hlines : textLines t = [t] := by
    have : ∀ s : Str, s ≠ [] → (∀ c ∈ s, isNL c = false) → textLines s = [s] := by
      intro s
      induction s with
      | nil => intro h; exact absurd rfl h
      | cons c s ih =>
        intro _ h
        have hc := h c (by simp)
        have hs := fun x hx => h x (List.mem_cons_of_mem c hx)
        by_cases h0 : s = []
        · subst h0
          simp only [isNL, Bool.or_eq_false_iff, decide_eq_false_iff_not] at hc
          simp [textLines, hc, consHead]
        · rw [textLines]
          simp only [isNL, Bool.or_eq_false_iff, decide_eq_false_iff_not] at hc
          simp [hc, ih h0 hs, consHead]
    exact this t hne hnl
  have hsplit : splitOn NUL t = [t] := by
    have : ∀ s : Str, NUL ∉ s → splitOn NUL s = [s] := by
      intro s
      induction s with
      | nil => intro _; rfl
      | cons c s ih =>
        intro h
        simp only [List.mem_cons, not_or] at h
        rw [splitOn, if_neg (Ne.symm h.1), ih h.2]
        rfl
    exact this t hnul
  have hp := C04_unquoted_is_split limit hl NUL false t hnul (by
    intro l hl' p hp
    rw [hlines] at hl'
    simp only [List.mem_singleton] at hl'
    subst hl'
    rw [hsplit] at hp
    simp only [List.mem_singleton] at hp
    subst hp
    exact hlim)
  rw [hlines] at hp
  simp only [List.map_cons, List.map_nil, if_neg hne, hsplit] at hp
  rw [← hcfg, ← hd0] at hp
  unfold parseString at hp
  rw [C10_same_cells] at hp
  simp only [Prod.mk.injEq] at hp
  unfold parseStringQuoted
  rcases hg : parseData limit (mkDialect [] [] []) mkQuoted (strItems (linesUniv t)) with ⟨rows, ex⟩
  rw [hg] at hp
  simp only at hp
  obtain ⟨h1, rfl⟩ := hp
  match rows, h1 with
  | [[(x, b)]], h1 =>
    simp at h1
    exact ⟨b, by rw [h1]⟩
  | [], h1 => simp at h1
  | _ :: _ :: _, h1 => simp at h1
  | [[]], h1 => simp at h1
  | [_ :: _ :: _], h1 => simp at h1

theorem isInfixOf_single {c : Char} {s : Str} (h : c ∉ s) : isInfixOf [c] s = false := by
  induction s with
  | nil => rfl
  | cons x s ih =>
    simp only [List.mem_cons, not_or] at h
    rw [isInfixOf, ih h.2]
    simp [List.isPrefixOf, h.1]

theorem splitFile_one {s : Str} (hnl : ∀ c ∈ s, c ≠ '\n' ∧ c ≠ '\r') : splitFile s = [s] := by
  have h1 : '\n' ∉ s := fun h => (hnl _ h).1 rfl
  have h2 : '\r' ∉ s := fun h => (hnl _ h).2 rfl
  have hd : ∀ (c : Char) (r : Str), c ∉ r → r.dropWhile (· = c) = r := by
    intro c r h
    cases r with
    | nil => rfl
    | cons x r =>
      simp only [List.mem_cons, not_or] at h
      simp [Ne.symm h.1]
  have h3 : stripTrailingCrnl s = s := by
    unfold stripTrailingCrnl
    rw [hd '\n' _ (by simpa using h1), hd '\r' _ (by simpa using h2), List.reverse_reverse]
  have h4 : isInfixOf ['\r', '\n'] s = false := by
    clear h3 hd h1 hnl
    induction s with
    | nil => rfl
    | cons x s ih =>
      simp only [List.mem_cons, not_or] at h2
      rw [isInfixOf, ih h2.2]
      simp [List.isPrefixOf, h2.1]
  unfold splitFile
  simp only
  rw [h3, h4, isInfixOf_single h1, isInfixOf_single h2]
  rfl

/-- Without delimiters and in one line no normal form is found. -/
theorem normal_none {env : PyEnv} {s : Str} (hnl : ∀ c ∈ s, c ≠ '\n' ∧ c ≠ '\r')
    (hd : ',' ∉ s ∧ ';' ∉ s ∧ '|' ∉ s ∧ '\t' ∉ s) : detectDialectNormal env s none = none := by
  have hin : ∀ d ∈ nfDelims, isInfixOf d s = false := by
    intro d h
    simp only [nfDelims, List.mem_cons, List.not_mem_nil, or_false] at h
    rcases h with rfl | rfl | rfl | rfl
    · exact isInfixOf_single hd.1
    · exact isInfixOf_single hd.2.1
    · exact isInfixOf_single hd.2.2.1
    · exact isInfixOf_single hd.2.2.2
  unfold detectDialectNormal
  simp only [Option.getD_none]
  split
  · rfl
  rw [splitFile_one hnl, Option.map_eq_none_iff, List.find?_eq_none]
  have same : ∀ d ∈ nfDelims, ∀ q, everyRowSameLength [s] d q = false := by
    intro d h q
    simp [everyRowSameLength, hin d h]
  intro t ht
  simp only [formTests, List.mem_append, List.mem_map, List.mem_flatMap, List.mem_cons, List.not_mem_nil,
    or_false] at ht
  rcases ht with ((⟨d, h, rfl⟩ | ⟨d, h, q, _, rfl | rfl | rfl⟩) | ⟨q, _, rfl⟩) | rfl
  · simp [isForm2, same d h]
  · simp [isForm1, same d h]
  · simp [isForm3, same d h]
  · simp [isForm5, everyRowHasDelim, hin d h]
  · simp [isForm4]
  · simp [isForm4]

theorem typeScore_one {env : PyEnv} {limit : Int} {data cell : Str} {d : SimpleDialect} {b : Bool}
    {x : PyExc} (hp : parseStringQuoted limit d data = ([[(cell, b)]], none))
    (hk : isKnownType env cell b = .error x) : typeScore env limit data d = .error x := by
  unfold typeScore typeScoreWith
  simp only [hp, List.flatten_cons, List.flatten_nil, List.append_nil, countKnown, hk]

theorem detect_falls_through {env : PyEnv} {ord : SetOrder} {limit : Int} {sample : Str}
    {ds : Option (List Str)} {skip : Bool} {r : Except PyExc (Option SimpleDialect) × Int}
    (hn : detectDialectNormal env sample ds = none)
    (hc : ∀ cap, consistencyDetect env ord cap skip limit sample ds = r) (method : DetectionMethod) :
    detect env ord limit sample ds method skip = ⟨r.1, some .consistency, r.2⟩ := by
  unfold detect
  rw [hn, hc]
  cases method <;> rfl

/-- If `json.loads` raises an exception that is not caught for a text in braces, then detection
raises it, whatever the method, and leaves the field size limit changed. -/
theorem detect_brace {env : PyEnv} (h : env.Ascii) (ord : SetOrder) (limit : Int) (u : Str)
    (hu : ∀ c ∈ u, BraceChar c) (hlen : InLong (u.length + 3)) (x : PyExc)
    (hx : isJsonObj env ('{' :: u ++ ['}']) = .error x) (method : DetectionMethod) (skip : Bool) :
    detect env ord limit ('{' :: u ++ ['}']) none method skip =
      ⟨.error x, some .consistency, (u.length : Int) + 3⟩ := by
  have hall : ∀ c ∈ '{' :: u ++ ['}'], BraceChar c := by
    intro c hc
    simp only [List.cons_append, List.mem_cons, List.mem_append, List.not_mem_nil, or_false] at hc
    rcases hc with rfl | hc | rfl
    · unfold BraceChar; decide
    · exact hu c hc
    · unfold BraceChar; decide
  have hl : (('{' :: u ++ ['}']).length : Int) + 1 = (u.length : Int) + 3 := by
    simp only [List.cons_append, List.length_cons, List.length_append, List.length_nil]
    omega
  have hnone : detectDialectNormal env ('{' :: u ++ ['}']) none = none := by
    refine normal_none (fun c hc => ⟨(hall c hc).2.2.1, (hall c hc).2.2.2.1⟩) ⟨?_, ?_, ?_, ?_⟩ <;>
      intro hm <;> have := hall _ hm <;> unfold BraceChar at this <;> simp at this
  have hts : typeScore env ((('{' :: u ++ ['}']).length : Int) + 1) ('{' :: u ++ ['}'])
      (mkDialect [] [] []) = .error x := by
    obtain ⟨b, hb⟩ := parse_one_line (limit := (('{' :: u ++ ['}']).length : Int) + 1)
      (t := '{' :: u ++ ['}']) (by rw [hl]; exact hlen) (by simp)
      (fun hm => (hall _ hm).2.1 rfl)
      (fun c hc => by simp [isNL, (hall c hc).2.2.1, (hall c hc).2.2.2.1]) (by omega)
    have hk : isKnownType env ('{' :: u ++ ['}']) b = .error x := by
      rw [isKnownType_brace h u b, hx]
      intro c hc
      have := hu c hc
      unfold BraceChar at this
      exact ⟨this.1, this.2.2.2.2.1, this.2.2.2.2.2.1, this.2.2.2.2.2.2.1, this.2.2.2.2.2.2.2.1,
        this.2.2.2.2.2.2.2.2.1⟩
    exact typeScore_one hb hk
  have hcons : ∀ cap, consistencyDetect env ord cap skip limit ('{' :: u ++ ['}']) none =
      (.error x, (u.length : Int) + 3) := by
    intro cap
    rw [first_raises ?_ hts, hl]
    intro y hy
    obtain ⟨d, q, e, rfl, hd, -⟩ := mem_getDialects.mp hy
    have key : ∀ c, c = ',' ∨ c = ';' → (mkDialect d q e).delimiter ≠ some [c] := by
      intro c hc he
      simp only [mkDialect, Option.some.injEq] at he
      subst he
      rcases mem_getDelimiters.mp hd with h0 | ⟨c', hc', -, h0⟩
      · simp at h0
      · simp only [List.cons.injEq, and_true] at h0
        subst h0
        rcases mem_filterUrls hc' with rfl | hm
        · rcases hc with hc | hc <;> simp at hc
        · have := hall c hm
          unfold BraceChar at this
          rcases hc with rfl | rfl
          · exact this.2.2.2.2.2.2.2.2.2.1 rfl
          · exact this.2.2.2.2.2.2.2.2.2.2.1 rfl
    exact ⟨key ',' (.inl rfl), key ';' (.inr rfl)⟩
  exact detect_falls_through hnone hcons method

end Clever
