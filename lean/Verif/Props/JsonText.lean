import Verif.Proofs.JsonText

/-!
# Properties of the JSON texts of dialects (C103)
-/

namespace Clever.Props

open Clever Spec

/-- The members of a text are determined by the text. -/
theorem C103_unique {lim depth : Nat} {s : Str} {ps qs : List (Str × JVal)} (h1 : ObjectText lim depth ps s)
    (h2 : ObjectText lim depth qs s) : ps = qs := by
  have e1 := (loads_iff (env := { asciiEnv with maxStrDigits := lim, jsonDepth := depth })).2 h1
  rw [(loads_iff (env := { asciiEnv with maxStrDigits := lim, jsonDepth := depth })).2 h2] at e1
  simpa using e1.symm

/-- **C103**, reading: from every JSON text of an object `deserialize` makes the dialect whose components are the values
of the four keys, whatever the order of the members, the white space, the way the characters are written and the other
keys are.  Of several members with one key the last counts.  There are no other texts that give a dialect. -/
theorem C103_deserialize {env : PyEnv} {s : Str} {d : SimpleDialect} : deserialize env s = .ok d ↔
    ∃ ps dl q e, ObjectText env.maxStrDigits env.jsonDepth ps s ∧ LastValue ps "delimiter" dl ∧
      LastValue ps "quotechar" q ∧ LastValue ps "escapechar" e ∧ LastValue ps "strict" (.bool d.strict) ∧
      IsComponent dl d.delimiter ∧ IsComponent q d.quotechar ∧ IsComponent e d.escapechar := by
  constructor
  · intro h
    unfold deserialize at h
    split at h
    · rename_i ps hps
      unfold fromDict at h
      split at h
      · rename_i dl q e b h1 h2 h3 h4
        simp only [bind, Except.bind, pure, Except.pure] at h
        split at h
        · cases h
        rename_i dl' hdl
        split at h
        · cases h
        rename_i q' hq
        split at h
        · cases h
        rename_i e' he
        cases h
        exact ⟨ps, dl, q, e, loads_iff.1 hps, jget_iff.1 h1, jget_iff.1 h2, jget_iff.1 h3, jget_iff.1 h4,
          ofJOpt_iff.1 hdl, ofJOpt_iff.1 hq, ofJOpt_iff.1 he⟩
      · cases h
      · cases h
    · split at h
      · cases h
      · cases h
      · cases h
      · split at h <;> cases h
  · rintro ⟨ps, dl, q, e, h, h1, h2, h3, h4, hd, hq, he⟩
    simp only [deserialize, loads_iff.2 h, fromDict, jget_iff.2 h1, jget_iff.2 h2, jget_iff.2 h3, jget_iff.2 h4,
      ofJOpt_iff.2 hd, ofJOpt_iff.2 hq, ofJOpt_iff.2 he, bind, Except.bind, pure, Except.pure]

/-- **C103**, missing keys: if one of the four keys is missing, `deserialize` raises `KeyError`. -/
theorem C103_missing {env : PyEnv} {s : Str} {ps : List (Str × JVal)}
    (h : ObjectText env.maxStrDigits env.jsonDepth ps s) {k : String}
    (hk : k ∈ ["delimiter", "quotechar", "escapechar", "strict"]) (hm : ∀ p ∈ ps, p.1 ≠ k.toList) :
    deserialize env s = .error .keyError := by
  have hn : jget ps k = none := by
    cases hj : jget ps k with
    | none => rfl
    | some v =>
      obtain ⟨a, b, rfl, -⟩ := jget_iff.1 hj
      exact absurd rfl (hm (k.toList, v) (by simp))
  simp only [deserialize, loads_iff.2 h, fromDict]
  simp only [List.mem_cons, List.not_mem_nil, or_false] at hk
  rcases hk with rfl | rfl | rfl | rfl <;> simp only [hn]
  · cases jget ps "delimiter" <;> rfl
  · cases jget ps "delimiter" <;> cases jget ps "quotechar" <;> rfl
  · cases jget ps "delimiter" <;> cases jget ps "quotechar" <;> cases jget ps "escapechar" <;> rfl

/-- **C103**, other values: for a JSON text of something that is no object, `deserialize` raises `TypeError`. -/
theorem C103_no_object {env : PyEnv} {a v b : Str} (ha : IsJsonSpace a) (hb : IsJsonSpace b)
    (hv : IsJson pythonWords env.maxStrDigits .value env.jsonDepth v) (ho : v.head? ≠ some '{') :
    ∃ m, deserialize env (a ++ (v ++ b)) = .error (.typeError m) := by
  obtain ⟨c, t, rfl, hc, -⟩ := value_head (fun _ h => h) hv
  have hw : skipWs (a ++ (c :: t ++ b)) = c :: t ++ b := by
    rw [skipWs_skip ha, List.cons_append, skipWs_id hc]
  have hl : loads env (a ++ (c :: t ++ b)) = none := by
    cases hl : loads env (a ++ (c :: t ++ b)) with
    | none => rfl
    | some ps =>
      obtain ⟨d, a', b', c', -, ha', -, -, he⟩ := loads_iff.1 hl
      have := congrArg skipWs he
      rw [hw, skipWs_skip ha', skipWs_id (by decide)] at this
      simp only [List.cons_append, List.cons.injEq] at this
      simp [this.1] at ho
  have hj : jsonLoads env (a ++ (c :: t ++ b)) = .ok () := (jsonLoads_iff env _).2 ⟨a, _, b, ha, hv, hb, rfl⟩
  refine ⟨"not subscriptable", ?_⟩
  rw [deserialize, hl]
  simp only [hj, hw]
  rw [if_neg (by simpa using ho)]

/-- **C103**, other texts: if the text is no JSON text within the limits, `deserialize` raises `ValueError` or
`RecursionError`. -/
theorem C103_no_json {env : PyEnv} {s : Str}
    (h : ¬ ∃ a v b, IsJsonSpace a ∧ IsJson pythonWords env.maxStrDigits .value env.jsonDepth v ∧ IsJsonSpace b ∧
      s = a ++ (v ++ b)) :
    (∃ m, deserialize env s = .error (.valueError m)) ∨ deserialize env s = .error .recursionError := by
  have hl : loads env s = none := by
    cases hl : loads env s with
    | none => rfl
    | some ps =>
      obtain ⟨a, t, c, ha, hj, hc, he⟩ := objectText_json (loads_iff.1 hl)
      exact absurd ⟨a, _, c, ha, hj, hc, he⟩ h
  have hj : jsonLoads env s ≠ .ok () := fun hj => h ((jsonLoads_iff env s).1 hj)
  unfold deserialize
  rw [hl]
  simp only
  split
  · exact Or.inl ⟨_, rfl⟩
  · exact Or.inr rfl
  · exact Or.inl ⟨_, rfl⟩
  · rename_i hk; exact absurd hk hj

theorem hexDigit_ascii (n : Nat) (h : n < 16) : 32 ≤ (hexDigit n).toNat ∧ (hexDigit n).toNat ≤ 126 := by
  unfold hexDigit
  split <;> rw [toNat_ofNat (by omega)] <;> omega

theorem u4_ascii (n : Nat) : ∀ c ∈ u4 n, 32 ≤ c.toNat ∧ c.toNat ≤ 126 := by
  intro c hc
  simp only [u4, List.mem_cons, List.not_mem_nil, or_false] at hc
  rcases hc with rfl | rfl | rfl | rfl | rfl | rfl
  · decide
  · decide
  all_goals exact hexDigit_ascii _ (Nat.mod_lt _ (by omega))

theorem encodeStr_ascii (s : Str) : ∀ c ∈ encodeStr s, 32 ≤ c.toNat ∧ c.toNat ≤ 126 := by
  intro c hc
  simp only [encodeStr, List.mem_cons, List.mem_append, List.mem_flatMap, List.not_mem_nil, or_false] at hc
  rcases hc with rfl | ⟨x, -, hx⟩ | rfl
  · decide
  · unfold encodeChar at hx
    repeat' split at hx
    all_goals first
      | (simp only [List.mem_cons, List.not_mem_nil, or_false] at hx; rcases hx with rfl | rfl <;> decide)
      | (simp only [List.mem_cons, List.not_mem_nil, or_false] at hx; subst hx; assumption)
      | exact u4_ascii _ c hx
      | (rcases List.mem_append.1 hx with hx | hx <;> exact u4_ascii _ c hx)
  · decide

/-- **C103**, writing: what `serialize` gives is a JSON text of the four members, in printable ASCII characters. -/
theorem C103_serialize {d : SimpleDialect} {s : Str} (h : d.serialize = .ok s) :
    (∃ dl q e, IsComponent dl d.delimiter ∧ IsComponent q d.quotechar ∧ IsComponent e d.escapechar ∧
      ∀ lim depth, 0 < depth → ObjectText lim depth [("delimiter".toList, dl), ("quotechar".toList, q), ("escapechar".toList, e),
        ("strict".toList, .bool d.strict)] s) ∧
    ∀ c ∈ s, 32 ≤ c.toNat ∧ c.toNat ≤ 126 := by
  have hj : ∀ x, IsComponent (jOpt x) x := by
    intro x
    cases x with
    | none => exact Or.inl ⟨rfl, rfl⟩
    | some t => exact Or.inr ⟨t, rfl, rfl⟩
  have hv : ∀ x, ∀ c ∈ encodeVal (jOpt x), 32 ≤ c.toNat ∧ c.toNat ≤ 126 := by
    intro x
    cases x with
    | none => decide
    | some t => exact encodeStr_ascii t
  simp only [SimpleDialect.serialize, SimpleDialect.toDict, bind, Except.bind] at h
  split at h
  · simp at h
  rename_i v hval
  split at hval
  · simp at hval
  simp only [pure, Except.pure, Except.ok.injEq] at hval h
  subst hval
  subst h
  have hf : ∀ x, (jOpt x).flat = true := by intro x; cases x <;> rfl
  refine ⟨⟨jOpt d.delimiter, jOpt d.quotechar, jOpt d.escapechar, hj _, hj _, hj _, fun lim depth hd =>
    loads_iff.1 (loads_dumps { asciiEnv with maxStrDigits := lim, jsonDepth := depth } (by simp; omega) _ _
      (by simp [hf, flat_bool]))⟩, ?_⟩
  have hb : ∀ c ∈ encodeVal (.bool d.strict), 32 ≤ c.toNat ∧ c.toNat ≤ 126 := by
    cases d.strict <;> decide
  have hs1 : ∀ c ∈ ": ".toList, 32 ≤ c.toNat ∧ c.toNat ≤ 126 := by decide
  have hs2 : ∀ c ∈ ", ".toList, 32 ≤ c.toNat ∧ c.toNat ≤ 126 := by decide
  intro c hc
  simp only [dumps, encodeItems, List.mem_cons, List.mem_append, List.not_mem_nil, or_false] at hc
  rcases hc with rfl | hc | rfl
  · decide
  · rcases hc with ((((hc | hc) | hc) | hc) | ((((hc | hc) | hc) | hc) | ((((hc | hc) | hc) | hc) | ((hc | hc) | hc))))
    all_goals first
      | exact encodeStr_ascii _ c hc
      | exact hs1 c hc
      | exact hs2 c hc
      | exact hv _ c hc
      | exact hb c hc
  · decide

/-! Examples -/

/-- A text with repeated and further keys, other white space, characters written as numbers, and nested values. -/
def demoJson : Str :=
  " {\t\"strict\":true ,\r\n \"x\" : [null, {\"a\": -1.5e3}],\"delimiter\": \"a\",\"quotechar\":\"\\u0027\", \"escapechar\"\n:\"\\uD83D\\ude00\", \"delimiter\": \"\\t\"}\n".toList

example : deserialize asciiEnv demoJson = .ok ⟨some ['\t'], some ['\''], some ['😀'], true⟩ := by decide +kernel

example : ∃ ps, ObjectText 4300 990 ps demoJson ∧ LastValue ps "delimiter" (.str ['\t']) ∧ ps.length = 6 := by
  refine ⟨_, loads_iff.1 (by decide +kernel : loads asciiEnv demoJson = some
    [("strict".toList, .bool true), ("x".toList, .other "[null, {\"a\": -1.5e3}]".toList), ("delimiter".toList, .str ['a']),
      ("quotechar".toList, .str ['\'']), ("escapechar".toList, .str ['😀']), ("delimiter".toList, .str ['\t'])]),
    jget_iff.1 (by decide +kernel), rfl⟩

example : deserialize asciiEnv "{\"delimiter\": \",\"}".toList = .error .keyError := by decide +kernel

example : deserialize asciiEnv " [1, 2]".toList = .error (.typeError "not subscriptable") ∧
    deserialize asciiEnv "{\"delimiter\": }".toList = .error (.valueError "JSONDecodeError") ∧
    deserialize { asciiEnv with jsonDepth := 2 } "{\"x\": [[]]}".toList = .error .recursionError := by decide +kernel

example : (dialectOf (some (Char.ofNat 127)) (some '"') (some '😀')).serialize =
    .ok "{\"delimiter\": \"\\u007f\", \"quotechar\": \"\\\"\", \"escapechar\": \"\\ud83d\\ude00\", \"strict\": false}".toList := by
  decide +kernel

end Clever.Props
