import Verif.Model.Json

/-!
# Decoding what `json.dumps` wrote
-/

set_option linter.unusedSimpArgs false

namespace Clever

theorem hexVal_hexDigit (n : Nat) (h : n < 16) : hexVal (hexDigit n) = some n := by
  have : ∀ m : Fin 16, hexVal (hexDigit m.1) = some m.1 := by decide
  exact this ⟨n, h⟩

theorem hex4_u4 (n : Nat) (h : n < 65536) (t : Str) :
    hex4 (hexDigit (n / 4096 % 16) :: hexDigit (n / 256 % 16) :: hexDigit (n / 16 % 16) ::
      hexDigit (n % 16) :: t) = some (n, t) := by
  simp only [hex4, hexVal_hexDigit _ (Nat.mod_lt _ (by decide : 0 < 16)), bind, Option.bind, pure,
    Option.some.injEq, Prod.mk.injEq, and_true]
  omega

theorem char_not_surrogate (c : Char) : c.toNat < 55296 ∨ (57343 < c.toNat ∧ c.toNat < 1114112) := by
  have := c.valid
  simp only [UInt32.isValidChar, Nat.isValidChar] at this
  exact this

theorem ofNat_toNat (c : Char) : Char.ofNat c.toNat = c := by simp

theorem decodeStr_escape (n : Nat) (s : Str) (c : Char) (t : Str)
    (h : decodeEscape s = some (c, t)) :
    decodeStr (n + 1) ('\\' :: s) = (decodeStr n t).map (fun p => (c :: p.1, p.2)) := by
  simp only [decodeStr, h]
  cases decodeStr n t <;> simp

theorem u4_append (n : Nat) (t : Str) : u4 n ++ t = '\\' :: 'u' :: hexDigit (n / 4096 % 16) ::
    hexDigit (n / 256 % 16) :: hexDigit (n / 16 % 16) :: hexDigit (n % 16) :: t := rfl

/-- One encoded character. -/
theorem decodeStr_encodeChar (n : Nat) (c : Char) (t : Str) :
    decodeStr (n + 1) (encodeChar c ++ t) = (decodeStr n t).map (fun p => (c :: p.1, p.2)) := by
  unfold encodeChar
  split
  · rename_i h; subst h
    exact decodeStr_escape n _ _ _ (by simp [decodeEscape])
  split
  · rename_i h; subst h
    exact decodeStr_escape n _ _ _ (by simp [decodeEscape])
  split
  · rename_i h; subst h
    exact decodeStr_escape n _ _ _ (by simp [decodeEscape])
  split
  · rename_i h; subst h
    exact decodeStr_escape n _ _ _ (by simp [decodeEscape])
  split
  · rename_i h; subst h
    exact decodeStr_escape n _ _ _ (by simp [decodeEscape])
  split
  · rename_i h
    refine decodeStr_escape n _ _ _ ?_
    have : Char.ofNat 12 = c := by rw [← h]; simp
    subst this
    simp [decodeEscape]
  split
  · rename_i h
    refine decodeStr_escape n _ _ _ ?_
    have : Char.ofNat 8 = c := by rw [← h]; simp
    subst this
    simp [decodeEscape]
  rename_i h1 h2 h3 h4 h5 h6 h7
  split
  · rename_i h
    simp only [List.cons_append, List.nil_append, decodeStr, h1, h2, if_false]
    rw [if_neg (by omega)]
    cases decodeStr n t <;> simp
  split
  · rename_i h8 h
    rw [u4_append]
    refine decodeStr_escape n _ _ _ ?_
    simp only [decodeEscape, hex4_u4 c.toNat h, Char.reduceEq, or_self, if_false, if_true]
    have := char_not_surrogate c
    rw [if_neg (by omega), if_neg (by omega), ofNat_toNat]
  · rename_i h8 h
    simp only
    rw [List.append_assoc, u4_append, u4_append]
    refine decodeStr_escape n _ _ _ ?_
    have hc := char_not_surrogate c
    have e1 : 55296 + (c.toNat - 65536) / 1024 % 1024 < 65536 := by omega
    have e2 : 56320 + (c.toNat - 65536) % 1024 < 65536 := by omega
    simp only [decodeEscape, hex4_u4 _ e1, hex4_u4 _ e2,
      Char.reduceEq, or_self, if_false, if_true, and_self]
    rw [if_pos (by omega), if_pos (by omega)]
    have : 65536 + ((55296 + (c.toNat - 65536) / 1024 % 1024 - 55296) * 1024 +
        (56320 + (c.toNat - 65536) % 1024 - 56320)) = c.toNat := by omega
    rw [this, ofNat_toNat]

theorem decodeStr_encode (s : Str) : ∀ (n : Nat) (t : Str), s.length < n →
    decodeStr n (s.flatMap encodeChar ++ '"' :: t) = some (s, t) := by
  induction s with
  | nil =>
    intro n t h
    cases n with
    | zero => simp at h
    | succ n => simp [decodeStr]
  | cons c cs ih =>
    intro n t h
    cases n with
    | zero => simp at h
    | succ n =>
      rw [List.flatMap_cons, List.append_assoc, decodeStr_encodeChar,
        ih n t (by simpa using h)]
      rfl

theorem length_encodeChar (c : Char) : 1 ≤ (encodeChar c).length := by
  unfold encodeChar
  repeat' split
  all_goals simp [u4]

theorem length_encode (s : Str) : s.length ≤ (s.flatMap encodeChar).length := by
  induction s with
  | nil => simp
  | cons c cs ih =>
    have := length_encodeChar c
    simp only [List.flatMap_cons, List.length_cons, List.length_append]
    omega

theorem decodeStr_tail (s t : Str) :
    decodeStr ((s.flatMap encodeChar ++ '"' :: t).length + 1) (s.flatMap encodeChar ++ '"' :: t) =
      some (s, t) := by
  apply decodeStr_encode
  have := length_encode s
  simp only [List.length_append, List.length_cons]
  omega

/-- A string, a boolean or `null`. -/
def JVal.flat : JVal → Bool
  | .other _ => false
  | _ => true

theorem flat_bool (b : Bool) : (JVal.bool b).flat = true := rfl

theorem decodeQuoted_encode (s t : Str) : decodeQuoted (encodeStr s ++ t) = some (s, t) := by
  have := decodeStr_tail s t
  simp only [encodeStr, decodeQuoted, List.cons_append, List.append_assoc, List.nil_append, dropPrefix, if_true, this]

theorem decodeVal_encode (env : PyEnv) (d : Nat) {v : JVal} (hv : v.flat = true) (t : Str) :
    decodeVal env d (encodeVal v ++ t) = some (v, t) := by
  cases v with
  | str s => simp only [encodeVal, decodeVal, decodeQuoted_encode]
  | bool b => cases b <;> simp [encodeVal, decodeVal, decodeQuoted, dropPrefix]
  | null => simp [encodeVal, decodeVal, decodeQuoted, dropPrefix]
  | other t => cases hv

theorem skipWs_encodeVal {v : JVal} (hv : v.flat = true) (t : Str) : skipWs (encodeVal v ++ t) = encodeVal v ++ t := by
  cases v with
  | other t => cases hv
  | str s => simp [encodeVal, encodeStr, skipWs]
  | bool b => cases b <;> simp [encodeVal, skipWs]
  | null => simp [encodeVal, skipWs]

theorem skipWs_space (t : Str) : skipWs (' ' :: t) = skipWs t := by simp [skipWs]

theorem skipWs_encodeStr (s t : Str) : skipWs (encodeStr s ++ t) = encodeStr s ++ t := by
  simp [encodeStr, skipWs]

theorem decodeItem_encode (env : PyEnv) (d : Nat) (k : Str) {v : JVal} (hv : v.flat = true) (t : Str) :
    decodeItem env d (encodeStr k ++ (": ".toList ++ (encodeVal v ++ t))) = some ((k, v), t) := by
  simp only [decodeItem, skipWs_encodeStr, bind, Option.bind, decodeQuoted_encode]
  simp [skipWs, dropPrefix, skipWs_encodeVal hv, decodeVal_encode env d hv]

theorem decodeItem_space (env : PyEnv) (d : Nat) (t : Str) : decodeItem env d (' ' :: t) = decodeItem env d t := by
  simp only [decodeItem, skipWs_space]

theorem decodeItems_space (env : PyEnv) (d n : Nat) (t : Str) :
    decodeItems env d n (' ' :: t) = decodeItems env d n t := by
  cases n with
  | zero => rfl
  | succ n => simp only [decodeItems, decodeItem_space]

theorem decodeItems_encode (env : PyEnv) (d : Nat) (ps : List (Str × JVal)) : ∀ (p : Str × JVal) (n : Nat) (t : Str),
    (∀ q ∈ p :: ps, q.2.flat = true) →
    ps.length < n → decodeItems env d n (encodeItems (p :: ps) ++ '}' :: t) = some (p :: ps, t) := by
  induction ps with
  | nil =>
    intro p n t hf h
    cases n with
    | zero => simp at h
    | succ n =>
      obtain ⟨k, v⟩ := p
      simp only [encodeItems, List.append_assoc, decodeItems, decodeItem_encode env d k (hf (k, v) (by simp))]
      simp [skipWs]
  | cons p' ps ih =>
    intro p n t hf h
    cases n with
    | zero => simp at h
    | succ n =>
      obtain ⟨k, v⟩ := p
      simp only [encodeItems, List.append_assoc, decodeItems, decodeItem_encode env d k (hf (k, v) (by simp))]
      have hs : skipWs (", ".toList ++ (encodeItems (p' :: ps) ++ '}' :: t)) =
          ',' :: ' ' :: (encodeItems (p' :: ps) ++ '}' :: t) := by
        simp [skipWs]
      rw [hs]
      simp only [Char.reduceEq, if_false, if_true, decodeItems_space]
      rw [ih p' n t (fun q hq => hf q (List.mem_cons_of_mem _ hq)) (by simpa using h)]

theorem length_encodeItems (ps : List (Str × JVal)) : ps.length ≤ (encodeItems ps).length := by
  induction ps with
  | nil => simp
  | cons p ps ih =>
    cases ps with
    | nil => obtain ⟨k, v⟩ := p; simp [encodeItems, encodeStr]
    | cons p' ps =>
      obtain ⟨k, v⟩ := p
      simp only [encodeItems, List.length_append, encodeStr, List.length_cons] at ih ⊢
      omega

/-- `json.loads(json.dumps(d)) == d` for a non-empty flat object. -/
theorem loads_dumps (env : PyEnv) (hd : env.jsonDepth ≠ 0) (p : Str × JVal) (ps : List (Str × JVal))
    (hf : ∀ q ∈ p :: ps, q.2.flat = true) : loads env (dumps (p :: ps)) = some (p :: ps) := by
  obtain ⟨d, hd⟩ : ∃ d, env.jsonDepth = d + 1 := ⟨env.jsonDepth - 1, by omega⟩
  have h1 : skipWs (dumps (p :: ps)) = dumps (p :: ps) := by simp [dumps, skipWs]
  have h2 : ∃ r, encodeItems (p :: ps) = '"' :: r := by
    obtain ⟨k, v⟩ := p
    cases ps <;> exact ⟨_, rfl⟩
  obtain ⟨r, hr⟩ := h2
  have h3 : dropPrefix ['}'] (skipWs (encodeItems (p :: ps) ++ ['}'])) = none := by
    rw [hr]; simp [skipWs, dropPrefix]
  have h4 := decodeItems_encode env d ps p ((encodeItems (p :: ps) ++ ['}']).length + 1) [] hf (by
    have := length_encodeItems (p :: ps)
    simp only [List.length_append, List.length_cons] at this ⊢
    omega)
  simp only [loads, hd, h1]
  simp only [dumps, dropPrefix, if_true, h3, h4]
  simp [skipWs]

end Clever
