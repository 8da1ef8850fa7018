import Verif.Model.VerboseTerminal
import Verif.Spec.VerboseTerminal
import Verif.Proofs.Terminal
import Verif.Proofs.Verbose

/-!
# Helper lemmas: verbose detection on a terminal
-/

namespace Clever

open Spec

/-- Print lines until one cannot be written. -/
def Terminal.lines (t : Terminal) : List Str → Out → Bool × Out
  | [], s => (true, s)
  | l :: ls, s =>
    match t.line l s with
    | (false, s) => (false, s)
    | (true, s) => t.lines ls s

variable {t : Terminal}

theorem lines_append (t : Terminal) : ∀ (xs ys : List Str) (s : Out), t.lines (xs ++ ys) s =
    match t.lines xs s with
    | (false, s) => (false, s)
    | (true, s) => t.lines ys s
  | [], _, _ => rfl
  | x :: xs, ys, s => by
    simp only [List.cons_append, Terminal.lines]
    rcases t.line x s with ⟨_ | _, s1⟩
    · rfl
    · exact lines_append t xs ys s1

theorem say_lines (t : Terminal) (v : Bool) (x : Str) (s : Out) : t.say v x s = t.lines (say v x) s := by
  unfold Terminal.say Clever.say
  cases v with
  | false => rfl
  | true =>
    simp only [if_true, Terminal.lines]
    rcases t.line x s with ⟨_ | _, s1⟩ <;> rfl

theorem scoreLoopE_eq (t : Terminal) (pr : Printer) (v : Bool) {pat : SimpleDialect → Except PyExc ℚ}
    {typ : TypeCache → SimpleDialect → Except PyExc ℚ × TypeCache} {skip : Bool} :
    ∀ (ds : List SimpleDialect) (inc : Option ℚ) (cache : TypeCache) (scores : List (SimpleDialect × ConsistencyScore)) (s : Out),
      scoreLoopE t pr v pat typ skip ds inc cache scores s =
        match t.lines (scoreLoopV pr v pat typ skip ds inc cache scores).2 s with
        | (false, s) => (.error .unicodeError, s)
        | (true, s) => ((scoreLoopV pr v pat typ skip ds inc cache scores).1.1, s)
  | [], _, _, _, _ => rfl
  | d :: ds, inc, cache, scores, s => by
    rw [scoreLoopE, scoreLoopV]
    cases pat d with
    | error e => rfl
    | ok P =>
      simp only
      split
      · simp only [lines_append, ← say_lines]
        rcases t.say v (scoreLine pr d ⟨P, none, none⟩) s with ⟨_ | _, s1⟩
        · rfl
        · exact scoreLoopE_eq t pr v ds _ _ _ s1
      · rcases typ cache d with ⟨e | T, cache'⟩
        · rfl
        · simp only [lines_append, ← say_lines]
          rcases t.say v (scoreLine pr d ⟨P, some T, some (fl (P * T))⟩) s with ⟨_ | _, s1⟩
          · rfl
          · exact scoreLoopE_eq t pr v ds _ _ _ s1

theorem computeE_eq (t : Terminal) (pr : Printer) (v : Bool) (env : PyEnv) (cap : Option Nat) (skip : Bool)
    (cache : TypeCache) (limit : Int) (data : Str) (ds : List SimpleDialect) (s : Out) :
    computeConsistencyScoresE t pr v env cap skip cache limit data ds s =
      match t.lines (computeConsistencyScoresV pr v env cap skip cache limit data ds).2 s with
      | (false, s) => (.error .unicodeError, s)
      | (true, s) => ((computeConsistencyScoresV pr v env cap skip cache limit data ds).1.1, s) := by
  unfold computeConsistencyScoresE computeConsistencyScoresV
  cases sortDialects ds with
  | error e => rfl
  | ok l => exact scoreLoopE_eq ..

theorem consistencyDetectE_eq (t : Terminal) (pr : Printer) (v : Bool) (env : PyEnv) (ord : SetOrder) (cap : Option Nat)
    (skip : Bool) (limit : Int) (data : Str) (ds : Option (List Str)) (s : Out) :
    consistencyDetectE t pr v env ord cap skip limit data ds s =
      match t.lines (consistencyDetectV pr v env ord cap skip limit data ds).2 s with
      | (false, s) => ((.error .unicodeError, (data.length : Int) + 1), s)
      | (true, s) => ((consistencyDetectV pr v env ord cap skip limit data ds).1, s) := by
  unfold consistencyDetectE consistencyDetectV
  dsimp only
  rw [computeE_eq]
  obtain ⟨⟨r, c⟩, l⟩ := computeConsistencyScoresV pr v env cap skip [] ((data.length : Int) + 1) data (getDialects env ord data ds)
  dsimp only
  cases r with
  | error e => rcases t.lines l s with ⟨_ | _, s1⟩ <;> rfl
  | ok scores =>
    rcases hz : t.lines l s with ⟨_ | _, s1⟩
    all_goals
      dsimp only
      generalize getBestDialects scores = best
      rcases best with _ | ⟨d, _ | ⟨d', m⟩⟩
      · dsimp only
        cases tieBreaker ord ((data.length : Int) + 1) data [] <;> simp only [hz]
      · simp only [hz]
      · dsimp only
        cases tieBreaker ord ((data.length : Int) + 1) data (d :: d' :: m) <;> simp only [hz]

theorem detectByConsistencyE_eq (t : Terminal) (pr : Printer) (v : Bool) (env : PyEnv) (ord : SetOrder) (limit : Int)
    (sample : Str) (ds : Option (List Str)) (skip : Bool) (s : Out) :
    detectByConsistencyE t pr v env ord limit sample ds skip s =
      match t.lines (say v "Running data consistency measure ...".toList) s with
      | (false, s) => (⟨.error .unicodeError, some .consistency, limit⟩, s)
      | (true, s) =>
        match t.lines (consistencyDetectV pr v env ord (some 100000) skip limit sample ds).2 s with
        | (false, s) => (⟨.error .unicodeError, some .consistency, (sample.length : Int) + 1⟩, s)
        | (true, s) => (⟨(consistencyDetectV pr v env ord (some 100000) skip limit sample ds).1.1, some .consistency,
            (consistencyDetectV pr v env ord (some 100000) skip limit sample ds).1.2⟩, s) := by
  unfold detectByConsistencyE
  rw [say_lines]
  rcases t.lines (say v "Running data consistency measure ...".toList) s with ⟨_ | _, s1⟩
  · rfl
  · dsimp only
    rw [consistencyDetectE_eq]
    rcases t.lines (consistencyDetectV pr v env ord (some 100000) skip limit sample ds).2 s1 with ⟨_ | _, s2⟩ <;> rfl

theorem detectDialectNormalE_eq (t : Terminal) (v : Bool) (env : PyEnv) (data : Str) (ds : Option (List Str)) (s : Out) :
    detectDialectNormalE t v env data ds s =
      match t.lines (detectDialectNormalV v env data ds).2 s with
      | (false, s) => (.error .unicodeError, s)
      | (true, s) => (.ok (detectDialectNormalV v env data ds).1, s) := by
  unfold detectDialectNormalE detectDialectNormalV
  dsimp only
  split
  · rw [say_lines]
    rcases t.lines (say v "Not normal, has potential escapechar.".toList) s with ⟨_ | _, s1⟩ <;> rfl
  · cases (formTests (ds.getD nfDelims)).find? fun x => x.holds (splitFile data) with
    | none =>
      dsimp only
      rw [say_lines]
      rcases t.lines (say v "Didn't match any normal forms.".toList) s with ⟨_ | _, s1⟩ <;> rfl
    | some x =>
      dsimp only
      rw [say_lines]
      rcases t.lines (say v ("Matched normal form ".toList ++ decDigits x.form ++ ['.'])) s with ⟨_ | _, s1⟩ <;> rfl

theorem put_true {x : Str} {s s' : Out} (h : t.put x s = (true, s')) :
    Written t s.screen [x] s'.screen ∧ s'.text = s.text ++ x := by
  unfold Terminal.put at h
  cases he : t.codec.encodeFrom s.screen.enc (t.newlines x) with
  | none => rw [he] at h; cases h
  | some r =>
    obtain ⟨e, b⟩ := r
    rw [he] at h
    cases h
    exact ⟨.cons he (.nil _), rfl⟩

theorem put_false {x : Str} {s s' : Out} (h : t.put x s = (false, s')) : s' = s ∧ Unwritable t s.screen x := by
  unfold Terminal.put at h
  cases he : t.codec.encodeFrom s.screen.enc (t.newlines x) with
  | none => rw [he] at h; cases h; exact ⟨rfl, he⟩
  | some r => rw [he] at h; cases h

theorem line_true {x : Str} {s s' : Out} (h : t.line x s = (true, s')) :
    Written t s.screen [x, ['\n']] s'.screen ∧ s'.text = s.text ++ x ++ ['\n'] := by
  unfold Terminal.line at h
  rcases hp : t.put x s with ⟨_ | _, s1⟩
  · rw [hp] at h; cases h
  · rw [hp] at h
    obtain ⟨h1, h2⟩ := put_true hp
    obtain ⟨h3, h4⟩ := put_true h
    exact ⟨written_append h1 h3, by rw [h4, h2]⟩

theorem line_false {x : Str} {s s' : Out} (h : t.line x s = (false, s')) :
    ∃ before y after, [x, ['\n']] = before ++ y :: after ∧ Written t s.screen before s'.screen ∧ Unwritable t s'.screen y ∧
      s'.text = s.text ++ before.flatten := by
  unfold Terminal.line at h
  rcases hp : t.put x s with ⟨_ | _, s1⟩
  · rw [hp] at h
    obtain ⟨rfl, h1⟩ := put_false hp
    cases h
    exact ⟨[], x, [['\n']], rfl, .nil _, h1, by simp⟩
  · rw [hp] at h
    obtain ⟨h1, h2⟩ := put_true hp
    obtain ⟨rfl, h3⟩ := put_false h
    exact ⟨[x], ['\n'], [], rfl, h1, h3, by simp [h2]⟩

theorem lines_true : ∀ {ls : List Str} {s s' : Out}, t.lines ls s = (true, s') →
    Written t s.screen (lineTexts ls) s'.screen ∧ s'.text = s.text ++ (lineTexts ls).flatten
  | [], s, s', h => by
    cases h
    exact ⟨.nil _, by simp [lineTexts]⟩
  | l :: ls, s, s', h => by
    rw [Terminal.lines] at h
    rcases hp : t.line l s with ⟨_ | _, s1⟩
    · rw [hp] at h; cases h
    · rw [hp] at h
      obtain ⟨h1, h2⟩ := line_true hp
      obtain ⟨h3, h4⟩ := lines_true h
      exact ⟨written_append h1 h3, by rw [h4, h2]; simp [lineTexts]⟩

theorem lines_false : ∀ {ls : List Str} {s s' : Out}, t.lines ls s = (false, s') →
    ∃ before x after, lineTexts ls = before ++ x :: after ∧ Written t s.screen before s'.screen ∧ Unwritable t s'.screen x ∧
      s'.text = s.text ++ before.flatten
  | [], s, s', h => by cases h
  | l :: ls, s, s', h => by
    rw [Terminal.lines] at h
    rcases hp : t.line l s with ⟨_ | _, s1⟩
    · rw [hp] at h
      cases h
      obtain ⟨before, y, after, h1, h2, h3, h4⟩ := line_false hp
      refine ⟨before, y, after ++ lineTexts ls, ?_, h2, h3, h4⟩
      have : lineTexts (l :: ls) = [l, ['\n']] ++ lineTexts ls := rfl
      rw [this, h1]
      simp
    · rw [hp] at h
      obtain ⟨h1, h2⟩ := line_true hp
      obtain ⟨before, y, after, h3, h4, h5, h6⟩ := lines_false h
      refine ⟨[l, ['\n']] ++ before, y, after, ?_, written_append h1 h4, h5, by rw [h6, h2]; simp⟩
      have : lineTexts (l :: ls) = [l, ['\n']] ++ lineTexts ls := rfl
      rw [this, h3]
      simp

/-- The line that cannot be printed. -/
theorem lines_false_mem : ∀ {ls : List Str} {s s' : Out}, t.lines ls s = (false, s') → ∃ l ∈ ls, ∃ s1, t.line l s1 = (false, s')
  | [], s, s', h => by cases h
  | l :: ls, s, s', h => by
    rw [Terminal.lines] at h
    rcases hp : t.line l s with ⟨_ | _, s1⟩
    · rw [hp] at h
      cases h
      exact ⟨l, by simp, s, hp⟩
    · rw [hp] at h
      obtain ⟨m, hm, h1⟩ := lines_false_mem h
      exact ⟨m, by simp [hm], h1⟩

theorem say_mem {v : Bool} {x y : Str} (h : y ∈ say v x) : y = x := by
  unfold say at h
  split at h
  · simpa using h
  · cases h

theorem ascii_decDigits (n : Nat) : Ascii (decDigits n) := by
  intro c hc
  have := Nat.isDigit_of_mem_toDigits (by decide) (by decide) hc
  simp only [Char.isDigit, Bool.and_eq_true, decide_eq_true_eq] at this
  have h2 : c.toNat ≤ 57 := this.2
  omega

theorem ascii_normalV (v : Bool) (env : PyEnv) (data : Str) (ds : Option (List Str)) :
    ∀ l ∈ (detectDialectNormalV v env data ds).2, Ascii l := by
  intro l hl
  unfold detectDialectNormalV at hl
  dsimp only at hl
  split at hl
  · rw [say_mem hl]; unfold Ascii; decide
  · split at hl
    · rw [say_mem hl]
      intro c hc
      simp only [List.mem_append] at hc
      rcases hc with (hc | hc) | hc
      · revert c; decide
      · exact ascii_decDigits _ c hc
      · revert c; decide
    · rw [say_mem hl]; unfold Ascii; decide

/-- `Detector.detect` when all messages are printed, when one of the fixed messages is not, and when a score is not. -/
theorem detectStrE_cases (t : Terminal) (pr : Printer) (v : Bool) (env : PyEnv) (ord : SetOrder) (limit : Int) (sample : Str)
    (ds : Option (List Str)) (m : Str) (skip : Bool) (s : Out) :
    (∃ s', t.lines (detectStrV pr v env ord limit sample ds m skip).2 s = (true, s') ∧
      detectStrE t pr v env ord limit sample ds m skip s = ((detectStrV pr v env ord limit sample ds m skip).1, s')) ∨
    ∃ s' meth lim, t.lines (detectStrV pr v env ord limit sample ds m skip).2 s = (false, s') ∧
      detectStrE t pr v env ord limit sample ds m skip s = (⟨.error .unicodeError, meth, lim⟩, s') ∧
      ((∃ l, Ascii l ∧ (∃ s1, t.line l s1 = (false, s')) ∧ lim = limit) ∨
        (∃ l ∈ (consistencyDetectV pr v env ord (some 100000) skip limit sample ds).2, ∃ s1, t.line l s1 = (false, s')) ∧
          meth = some .consistency ∧ lim = (sample.length : Int) + 1) := by
  have hrun1 : Ascii "Running data consistency measure ...".toList := by unfold Ascii; decide
  have hrun2 : Ascii "Running normal form detection ...".toList := by unfold Ascii; decide
  have hcon : ∀ s0 : Out,
      (∃ s', t.lines (say v "Running data consistency measure ...".toList ++
          (consistencyDetectV pr v env ord (some 100000) skip limit sample ds).2) s0 = (true, s') ∧
        detectByConsistencyE t pr v env ord limit sample ds skip s0 =
          (⟨(consistencyDetectV pr v env ord (some 100000) skip limit sample ds).1.1, some .consistency,
            (consistencyDetectV pr v env ord (some 100000) skip limit sample ds).1.2⟩, s')) ∨
      ∃ s' meth lim, t.lines (say v "Running data consistency measure ...".toList ++
          (consistencyDetectV pr v env ord (some 100000) skip limit sample ds).2) s0 = (false, s') ∧
        detectByConsistencyE t pr v env ord limit sample ds skip s0 = (⟨.error .unicodeError, meth, lim⟩, s') ∧
        ((∃ l, Ascii l ∧ (∃ s1, t.line l s1 = (false, s')) ∧ lim = limit) ∨
          (∃ l ∈ (consistencyDetectV pr v env ord (some 100000) skip limit sample ds).2, ∃ s1, t.line l s1 = (false, s')) ∧
            meth = some .consistency ∧ lim = (sample.length : Int) + 1) := by
    intro s0
    rw [detectByConsistencyE_eq, lines_append]
    rcases h1 : t.lines (say v "Running data consistency measure ...".toList) s0 with ⟨_ | _, s1⟩
    · obtain ⟨l, hl, s2, h2⟩ := lines_false_mem h1
      exact .inr ⟨s1, _, _, rfl, rfl, .inl ⟨l, by rw [say_mem hl]; exact hrun1, ⟨s2, h2⟩, rfl⟩⟩
    · dsimp only
      rcases h2 : t.lines (consistencyDetectV pr v env ord (some 100000) skip limit sample ds).2 s1 with ⟨_ | _, s2⟩
      · exact .inr ⟨s2, _, _, rfl, rfl, .inr ⟨lines_false_mem h2, rfl, rfl⟩⟩
      · exact .inl ⟨s2, rfl, rfl⟩
  unfold detectStrE detectStrV
  cases DetectionMethod.ofString m with
  | error e => exact .inl ⟨s, rfl, rfl⟩
  | ok m =>
    dsimp only
    unfold detectE detectV
    dsimp only
    by_cases hm : m = .normal ∨ m = .auto
    · rw [if_pos hm, if_pos hm, say_lines]
      rcases h1 : t.lines (say v "Running normal form detection ...".toList) s with ⟨_ | _, s1⟩
      · obtain ⟨l, hl, s2, h2⟩ := lines_false_mem h1
        have hall : ∀ x, t.lines (say v "Running normal form detection ...".toList ++ x) s = (false, s1) := fun x => by
          rw [lines_append, h1]
        refine .inr ⟨s1, none, limit, ?_, rfl, .inl ⟨l, by rw [say_mem hl]; exact hrun2, ⟨s2, h2⟩, rfl⟩⟩
        cases (detectDialectNormalV v env sample ds).1 with
        | some d => exact hall _
        | none => dsimp only; rw [List.append_assoc]; exact hall _
      · dsimp only
        have hall : ∀ x, t.lines (say v "Running normal form detection ...".toList ++ x) s = t.lines x s1 := fun x => by
          rw [lines_append, h1]
        rw [detectDialectNormalE_eq]
        have hn := ascii_normalV v env sample ds
        generalize detectDialectNormalV v env sample ds = nf at hn ⊢
        obtain ⟨r, nl⟩ := nf
        dsimp only at hn ⊢
        rcases h2 : t.lines nl s1 with ⟨_ | _, s2⟩
        · obtain ⟨l, hl, s3, h3⟩ := lines_false_mem h2
          refine .inr ⟨s2, none, limit, ?_, rfl, .inl ⟨l, hn l hl, ⟨s3, h3⟩, rfl⟩⟩
          cases r with
          | some d => dsimp only; rw [hall, h2]
          | none => dsimp only; rw [List.append_assoc, hall, lines_append, h2]
        · cases r with
          | some d => exact .inl ⟨s2, by dsimp only; rw [hall, h2], rfl⟩
          | none =>
            dsimp only
            have hx : ∀ x, t.lines (say v "Running normal form detection ...".toList ++ nl ++ x) s = t.lines x s2 := fun x => by
              rw [List.append_assoc, hall, lines_append, h2]
            rw [hx]
            exact hcon s2
    · rw [if_neg hm, if_neg hm]
      exact hcon s

/-! ## Commands -/

variable {α β : Type}

/-- The two versions of a program belong together. -/
def Sims (t : Terminal) (m : Act α) (n : ActE α) : Prop := ∀ w s, ∃ k, OnTerminal t k w s (m w) (n w s)

theorem Sim.sims {k : Nat} {m : Act α} {n : ActE α} (h : Sim t k m n) : Sims t m n := fun w s => ⟨k, h w s⟩

theorem Sims.bind {m : Act α} {n : ActE α} {f : α → Act β} {g : α → ActE β} (h : Sims t m n)
    (hf : ∀ a, Sims t (f a) (g a)) : Sims t (m >>= f) (n >>= g) := by
  intro w s
  obtain ⟨k, texts, h0, h1, h2⟩ := h w s
  rw [act_bind, actE_bind]
  rcases hm : m w with ⟨r, w1⟩
  rw [hm] at h1 h2
  simp only at h1 h2
  rcases h2 with ⟨s1, h2, h3⟩ | ⟨before, x, after, s1, rfl, h2, h3, h4, h5, h6⟩
  · rw [h3]
    cases r with
    | error e => exact ⟨_, texts, Nat.le_refl _, h1, .inl ⟨s1, h2, rfl⟩⟩
    | ok a =>
      simp only
      obtain ⟨l, texts2, k0, k1, k2⟩ := hf a w1 s1
      refine ⟨_, texts ++ texts2, Nat.le_refl _, by rw [k1, h1]; simp, ?_⟩
      rcases k2 with ⟨s2, k2, k3⟩ | ⟨before, x, after, s2, rfl, k2, k3, k4, k5, k6⟩
      · exact .inl ⟨s2, written_append h2 k2, k3⟩
      · exact .inr ⟨texts ++ before, x, after, s2, by simp, written_append h2 k2, k3, k4, by rw [k5, h1]; simp, k6⟩
  · rcases hn : n w s with ⟨r', w2, s2⟩
    rw [hn] at h4 h5 h6
    simp only at h4 h5 h6
    subst h4 h6
    simp only
    cases r with
    | error e => exact ⟨_, _, Nat.le_refl _, h1, .inr ⟨before, x, after, s2, rfl, h2, h3, rfl, h5, rfl⟩⟩
    | ok a =>
      simp only
      obtain ⟨l, texts2, k0, k1, -⟩ := hf a w1 s2
      exact ⟨_, before ++ x :: (after ++ texts2), Nat.le_refl _, by rw [k1, h1]; simp,
        .inr ⟨before, x, after ++ texts2, s2, rfl, h2, h3, rfl, h5, rfl⟩⟩

theorem Sims.silent {m : Act α} {f : α → Act β} {g : α → ActE β} (h : Silent m) (hf : ∀ a, Sims t (f a) (g a)) :
    Sims t (m >>= f) (silently m >>= g) := (sim_silently h).sims.bind hf

theorem lineTexts_flatten (ls : List Str) : (lineTexts ls).flatten = ls.flatMap fun l => l ++ ['\n'] := by
  induction ls with
  | nil => rfl
  | cons l ls ih =>
    have : lineTexts (l :: ls) = [l, ['\n']] ++ lineTexts ls := rfl
    rw [this, List.flatten_append, ih]
    simp

section

variable (sys : Sys) (pr : Printer) (v : Bool)

theorem sims_detector (data m : Str) (skip : Bool) :
    Sims t (runDetectorV sys pr v data m skip) (runDetectorE sys t pr v data m skip) := by
  intro w s
  refine ⟨_, lineTexts (detectStrV pr v sys.env sys.order w.limit data none m skip).2, Nat.le_refl _, ?_, ?_⟩
  · rw [lineTexts_flatten]; rfl
  · unfold runDetectorE runDetectorV
    dsimp only
    rcases detectStrE_cases t pr v sys.env sys.order w.limit data none m skip ⟨w.stdout, s⟩ with
      ⟨s', h1, h2⟩ | ⟨s', meth, lim, h1, h2, -⟩
    · obtain ⟨h3, h4⟩ := lines_true h1
      refine .inl ⟨s'.screen, h3, ?_⟩
      rw [h2, h4, lineTexts_flatten]
    · obtain ⟨before, x, after, h3, h4, h5, h6⟩ := lines_false h1
      refine .inr ⟨before, x, after, s'.screen, h3, h4, h5, ?_⟩
      rw [h2]
      exact ⟨rfl, h6, rfl⟩

theorem sims_detectDialect (p : Path) (n : Option Int) (e : Option Str) (m : Str) (skip : Bool) :
    Sims t (detectDialectV sys pr v p n e m skip) (detectDialectE sys t pr v p n e m skip) := by
  have h : detectDialectV sys pr v p n e m skip = (do
      let enc ← encodingOr sys p e
      let text ← openText sys p enc
      runDetectorV sys pr v (readSome text n) m skip) := by
    unfold detectDialectV encodingOr
    cases truthy e <;> rfl
  rw [h]
  exact Sims.silent (silent_encodingOr sys p e) fun e2 => Sims.silent (silent_openText sys p e2) fun _ => sims_detector sys pr v _ _ _

theorem sims_detectCmd (p : Path) (e : Option Str) (n : Option Int) (b b' : Bool) (f : DetectFormat) :
    Sims t (detectCmdV sys pr v p e n b b' f) (detectCmdVE sys t pr v p e n b b' f) := by
  refine (sims_detectDialect sys pr v p n e _ _).bind fun r => ?_
  cases r with
  | none => exact (sim_pure _).sims
  | some d => exact Sims.silent (silent_lift _) fun ls => (sim_lines ls).sims.bind fun _ => (sim_pure _).sims

theorem sims_codeCmd (p : Path) (e : Option Str) (n : Option Int) (b : Bool) :
    Sims t (codeCmdV sys pr v p e n b) (codeCmdVE sys t pr v p e n b) := by
  refine Sims.silent (silent_encodingOr sys p e) fun e2 => (sims_detectDialect sys pr v p n e2 _ _).bind fun r => ?_
  cases r with
  | none => exact (sim_pure _).sims
  | some d => exact Sims.silent (silent_lift _) fun ls => (sim_line _).sims.bind fun _ => (sim_pure _).sims

theorem sims_handlePath (a : StdArgs) (p : Path) (o : Option Path) (e : Option Str) :
    Sims t (handlePathV sys pr v a p o e) (handlePathVE sys t pr v a p o e) := by
  have hjp : ∀ e2, Sims t (do
      let target := match truthy a.target with
        | some t => some t
        | none => e2
      match ← detectDialectV sys pr v p a.numChars e2 with
      | none => return 1
      | some d =>
        if a.inPlace then inPlace sys a.transpose p d e2 target
        else
          match o with
          | none => toStdout sys a.transpose p d e2
          | some o => toFile sys a.transpose p o d e2 target) (do
      let target := match truthy a.target with
        | some t => some t
        | none => e2
      match ← detectDialectE sys t pr v p a.numChars e2 with
      | none => return 1
      | some d =>
        if a.inPlace then silently (inPlace sys a.transpose p d e2 target)
        else
          match o with
          | none => toStdoutE sys t a.transpose p d e2
          | some o => silently (toFile sys a.transpose p o d e2 target)) := by
    intro e2
    refine (sims_detectDialect sys pr v p a.numChars e2 _ _).bind fun r => ?_
    cases r with
    | none => exact (sim_pure _).sims
    | some d =>
      dsimp only
      split
      · exact (sim_silently (silent_inPlace sys _ _ _ _ _)).sims
      · cases o with
        | none => exact (sim_toStdout sys _ _ _ _).sims
        | some o => exact (sim_silently (silent_toFile sys _ _ _ _ _ _)).sims
  have h : handlePathV sys pr v a p o e = (do
      let e2 ← encodingOr sys p e
      let target := match truthy a.target with
        | some t => some t
        | none => e2
      match ← detectDialectV sys pr v p a.numChars e2 with
      | none => return 1
      | some d =>
        if a.inPlace then inPlace sys a.transpose p d e2 target
        else
          match o with
          | none => toStdout sys a.transpose p d e2
          | some o => toFile sys a.transpose p o d e2 target) := by
    unfold handlePathV encodingOr
    cases truthy e <;> rfl
  rw [h]
  exact Sims.silent (silent_encodingOr sys p e) hjp

theorem sims_handleLoop (a : StdArgs) : ∀ (jobs : List (Path × Option Path × Option Str)) (g : Nat),
    Sims t (handleLoopV sys pr v a jobs g) (handleLoopVE sys t pr v a jobs g)
  | [], _ => (sim_pure _).sims
  | (p, o, e) :: rest, g => by
    rw [handleLoopV, handleLoopVE]
    refine (sims_handlePath sys pr v a p o e).bind fun r => ?_
    simp only []
    generalize (if r > 0 ∧ g = 0 then r else g) = g'
    split
    · exact (sim_pure _).sims
    · exact sims_handleLoop a rest g'

theorem sims_standardize (a : StdArgs) : Sims t (standardizeV sys pr v a) (standardizeVE sys t pr v a) := by
  unfold standardizeV standardizeVE
  generalize (if a.outputs.length = 0 then a.paths.map (fun _ => none) else a.outputs.map some) = outs
  generalize (if a.encodings.length = 0 then a.paths.map (fun _ => none) else a.encodings.map some) = encs
  split
  · exact (sim_pure _).sims
  · simp only
    split
    · exact (sim_pure _).sims
    · match encs with
      | [e] => exact sims_handleLoop sys pr v a _ _
      | [] =>
        simp only
        split
        · exact (sim_pure _).sims
        · exact sims_handleLoop sys pr v a _ _
      | e :: e' :: r =>
        simp only
        split
        · exact (sim_pure _).sims
        · exact sims_handleLoop sys pr v a _ _

end

end Clever
