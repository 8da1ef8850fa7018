import Verif.Spec.Chunked
import Verif.Props.Streams
import Verif.Proofs.StandardizeLive

/-!
# Reading in chunks: helper lemmas
-/

namespace Clever

open Spec Props

variable {α : Type}

/-! ## The parser meets an exception of its input -/

theorem addChar_own {cfg : Cfg} {o : PObj α} {u : Char} : addChar cfg o u ≠ .error .inputRaised := by
  unfold addChar
  split <;> simp

theorem processChar_own {cfg : Cfg} {mk : Str → Bool → α} {o : PObj α} {u v : Char} :
    processChar cfg mk o u v ≠ .error .inputRaised := by
  intro h
  have ha : ∀ (o : PObj α) u e, addChar cfg o u = .error e → e ≠ .inputRaised := by
    rintro o u e h rfl
    exact addChar_own h
  unfold processChar stepStartField stepInField at h
  simp only [bind, Except.bind] at h
  split at h <;> (repeat' split at h) <;> simp_all <;> exact ha _ _ _ (by assumption) rfl

theorem feedLine_own {cfg : Cfg} {mk : Str → Bool → α} : ∀ {l : Str} {o : PObj α},
    feedLine cfg mk o l ≠ .error .inputRaised
  | [], o => processChar_own
  | u :: r, o => by
    rw [feedLine]
    split
    · simp
    · cases h : processChar cfg mk o u (r.headD NUL) with
      | error e =>
        simp only
        intro h'
        cases h'
        exact processChar_own h
      | ok o' => exact feedLine_own

theorem nextRowFrom_raise (cfg : Cfg) (mk : Str → Bool → α) : ∀ (A : List Str) (o : PObj α),
    nextRowFrom cfg mk o (strItems A ++ [.raise]) = (.error .inputRaised, []) ∨
    ∃ out A', out ≠ .stop ∧ out ≠ .error .inputRaised ∧ A'.length < A.length ∧
      nextRowFrom cfg mk o (strItems A ++ [.raise]) = (out, strItems A' ++ [.raise]) ∧
      ∀ B, nextRowFrom cfg mk o (strItems A ++ B) = (out, strItems A' ++ B)
  | [], o => .inl rfl
  | l :: A, o => by
    simp only [strItems, List.map_cons, List.cons_append, nextRowFrom]
    cases hf : feedLine cfg mk o l with
    | error e =>
      refine .inr ⟨.error e, A, by simp, ?_, by simp, rfl, fun B => rfl⟩
      intro h
      cases h
      exact feedLine_own hf
    | ok o' =>
      simp only
      by_cases hs : o'.state = .startRecord
      · simp only [hs, if_true]
        exact .inr ⟨_, A, by simp, by simp, by simp, rfl, fun B => rfl⟩
      · simp only [hs, if_false]
        rcases nextRowFrom_raise cfg mk A o' with h | ⟨out, A', h1, h2, h3, h4, h5⟩
        · exact .inl h
        · exact .inr ⟨out, A', h1, h2, by simp only [List.length_cons]; omega, h4, h5⟩

/-- The rows before an exception of the input, and what remains of an error before it. -/
theorem parseRows_raise (cfg : Cfg) (mk : Str → Bool → α) : ∀ (n : Nat) (A : List Str), A.length ≤ n →
    ((parseRows cfg mk (strItems A ++ [.raise])).2 = some .inputRaised ∧
      ∀ B, (parseRows cfg mk (strItems A ++ [.raise])).1 <+: (parseRows cfg mk (strItems A ++ B)).1) ∨
    ((parseRows cfg mk (strItems A ++ [.raise])).2 ≠ none ∧ (parseRows cfg mk (strItems A ++ [.raise])).2 ≠ some .inputRaised ∧
      ∀ B, parseRows cfg mk (strItems A ++ B) = parseRows cfg mk (strItems A ++ [.raise]))
  | n, A, hn => by
    rcases nextRowFrom_raise cfg mk A PObj.init with h | ⟨out, A', h1, h2, h3, h4, h5⟩
    · left
      rw [parseRows_eq, nextRow, h]
      exact ⟨rfl, fun B => List.nil_prefix⟩
    · have e1 : ∀ B, parseRows cfg mk (strItems A ++ B) = _ := fun B => by rw [parseRows_eq, nextRow, h5 B]
      cases out with
      | stop => exact absurd rfl h1
      | error e =>
        right
        have e2 : ∀ B, parseRows cfg mk (strItems A ++ B) = ([], some e) := fun B => by rw [e1]
        rw [e2]
        exact ⟨by simp, fun h => h2 (by cases h; rfl), fun B => by rw [e2]⟩
      | row r =>
        have e2 : ∀ B, parseRows cfg mk (strItems A ++ B) =
            (r :: (parseRows cfg mk (strItems A' ++ B)).1, (parseRows cfg mk (strItems A' ++ B)).2) := fun B => by rw [e1]
        cases n with
        | zero => omega
        | succ n =>
          rcases parseRows_raise cfg mk n A' (by omega) with ⟨k1, k2⟩ | ⟨k1, k2, k3⟩
          · left
            rw [e2]
            refine ⟨k1, fun B => ?_⟩
            rw [e2 B]
            exact List.cons_prefix_cons.mpr ⟨rfl, k2 B⟩
          · right
            rw [e2]
            refine ⟨k1, k2, fun B => ?_⟩
            rw [e2 B, k3 B]

theorem setChar_own {n : String} {v : Option Str} {x : PErr} : setChar n v ≠ .error (.parse x) := by
  unfold setChar
  (repeat' split) <;> simp

theorem cfg_own {d : SimpleDialect} {limit : Int} {x : PErr} : d.cfg limit ≠ .error (.parse x) := by
  unfold SimpleDialect.cfg mkCfg setLong
  simp only [bind, Except.bind, pure, Except.pure]
  intro h
  split at h
  · rename_i h1; cases h; exact setChar_own h1
  split at h
  · rename_i h1; cases h; exact setChar_own h1
  split at h
  · rename_i h1; cases h; exact setChar_own h1
  split at h
  · rename_i h1; split at h1 <;> cases h1; cases h
  · cases h

theorem parseData_raise (limit : Int) (d : SimpleDialect) (mk : Str → Bool → α) (A : List Str) :
    ((parseData limit d mk (strItems A ++ [.raise])).2 = some (.parse .inputRaised) ∧
      ∀ B, (parseData limit d mk (strItems A ++ [.raise])).1 <+: (parseData limit d mk (strItems A ++ B)).1) ∨
    ((parseData limit d mk (strItems A ++ [.raise])).2 ≠ none ∧
      (parseData limit d mk (strItems A ++ [.raise])).2 ≠ some (.parse .inputRaised) ∧
      ∀ B, parseData limit d mk (strItems A ++ B) = parseData limit d mk (strItems A ++ [.raise])) := by
  unfold parseData
  cases hc : d.cfg limit with
  | error e =>
    refine .inr ⟨by simp, ?_, fun B => rfl⟩
    simp only [ne_eq, Option.some.injEq]
    rintro rfl
    exact cfg_own hc
  | ok cfg =>
    rcases parseRows_raise cfg mk _ A (Nat.le_refl _) with ⟨k1, k2⟩ | ⟨k1, k2, k3⟩
    · exact .inl ⟨by simp [k1], k2⟩
    · refine .inr ⟨by simpa using k1, ?_, fun B => by simp only [k3 B]⟩
      simp only
      intro h
      cases hx : (parseRows cfg mk (strItems A ++ [.raise])).2 with
      | none => exact k1 hx
      | some e => rw [hx] at h; simp at h; exact k2 (by rw [hx, h])

/-! ## Opening a file -/

theorem openStream_inv {sys : Sys} {io : Io} {p : Path} {e : Option Str} {w w' : World} {f : TextIn}
    (h : openStream sys io p e w = (.ok f, w')) :
    w' = w.next ∧ ∃ b d, w.files p = some b ∧ io.decoder e = some d ∧
      f = { dec := d, chunks := (io.reads w.ticks b).1, fails := (io.reads w.ticks b).2 } := by
  unfold openStream at h
  rcases ho : openRead sys p w with ⟨x | b, w1⟩
  · rw [ho] at h; simp at h
  · rw [ho] at h
    obtain ⟨hb, rfl⟩ := openRead_inv ho
    simp only at h
    cases hd : io.decoder e with
    | none => rw [hd] at h; simp at h
    | some d =>
      rw [hd] at h
      simp only [Prod.mk.injEq, Except.ok.injEq] at h
      exact ⟨h.2.symm, b, d, hb, rfl, h.1.symm⟩

theorem openStream_fresh {sys : Sys} {io : Io} (hio : IoOk sys io) {p : Path} {e : Option Str} {w w' : World} {f : TextIn}
    (h : openStream sys io p e w = (.ok f, w')) : Fresh f := by
  obtain ⟨-, b, d, -, -, rfl⟩ := openStream_inv h
  exact ⟨rfl, rfl, rfl, hio.nonempty _ _⟩

/-- What the chunks give is the text of the file. -/
theorem openStream_readable {sys : Sys} {io : Io} (hio : IoOk sys io) {p : Path} {e : Option Str} {w w' : World} {f : TextIn}
    {t : Str} (h : openStream sys io p e w = (.ok f, w')) (hr : Readable f t) : w.text sys p e = some t := by
  obtain ⟨-, b, d, hb, hd, rfl⟩ := openStream_inv h
  obtain ⟨h1, s, h2, h3⟩ := hr
  simp only at h1 h2 h3
  rw [hio.whole _ _ h1] at h2
  cases hc : sys.codec e with
  | none => rw [hio.lookup e hc] at hd; cases hd
  | some c =>
    obtain ⟨d', hd', hw⟩ := hio.decoder e c hc
    rw [hd] at hd'
    cases hd'
    simp [World.text, hb, hc, hw, Decoder.whole, Decoder.decode, h2, h3]

/-- The text of a file can be read unless a read fails. -/
theorem text_readable {sys : Sys} {io : Io} (hio : IoOk sys io) {p : Path} {e : Option Str} {w w' : World} {f : TextIn}
    {t : Str} (h : openStream sys io p e w = (.ok f, w')) (ht : w.text sys p e = some t) :
    (f.fails = false → Readable f t) ∧ ∀ t' x, Breaks f t' x → t' <+: t := by
  obtain ⟨-, b, d, hb, hd, rfl⟩ := openStream_inv h
  cases hc : sys.codec e with
  | none => rw [hio.lookup e hc] at hd; cases hd
  | some c =>
    obtain ⟨d', hd', hw⟩ := hio.decoder e c hc
    rw [hd] at hd'
    cases hd'
    simp only [World.text, hb, hc, hw, Decoder.whole, Decoder.decode, Option.bind_some] at ht
    cases hx : d.feed 0 b with
    | none => rw [hx] at ht; simp at ht
    | some y =>
      obtain ⟨s, t1⟩ := y
      rw [hx] at ht
      cases ha : d.atEnd s with
      | false => simp [ha] at ht
      | true =>
        simp [ha] at ht
        subst ht
        refine ⟨fun hf => ⟨hf, s, ?_, ha⟩, ?_⟩
        · simp only at hf ⊢
          rw [hio.whole _ _ hf, hx]
        · rintro t' x ⟨good, s', g, hg⟩
          have hpre : good.flatten <+: b := by
            refine List.IsPrefix.trans ?_ (hio.start w.ticks b)
            rcases hg with ⟨c, bad, hg, -⟩ | ⟨hg, -⟩ | ⟨hg, -⟩
            · simp only at hg
              rw [hg, List.flatten_append]
              exact List.prefix_append _ _
            · simp only at hg
              rw [hg]
            · simp only at hg
              rw [hg]
          obtain ⟨r, rfl⟩ := hpre
          simp only at g
          rw [Decoder.feed_append, g, Option.bind_some] at hx
          cases hy : d.feed s' r with
          | none => simp [hy] at hx
          | some z =>
            simp [hy] at hx
            rw [← hx.2]
            exact List.prefix_append _ _

theorem settled_le (t : Str) : (settled t).length ≤ t.length := by
  unfold settled
  split
  · simp
  · exact Nat.le_refl _

/-- What is read for detection is the requested part of the text. -/
theorem readSome_text {sys : Sys} {io : Io} (hio : IoOk sys io) {p : Path} {e : Option Str} {w w' : World} {f : TextIn}
    {t : Str} (h : openStream sys io p e w = (.ok f, w')) (ht : w.text sys p e = some t) {n : Option Int} {data : Str}
    (hd : f.readSome n = .ok data) : data = readSome t n := by
  have hf := openStream_fresh hio h
  obtain ⟨h1, h2⟩ := text_readable hio h ht
  have hall : f.readAll = .ok data → data = t := by
    intro ha
    rcases (C123_cases f).1 with ⟨t', hr⟩ | ⟨t', x, hb⟩
    · have := openStream_readable hio h hr
      rw [ht] at this
      cases this
      rw [(C123_all hf).1 _ hr] at ha
      cases ha
      rfl
    · rw [(C123_all hf).2 _ _ hb] at ha
      cases ha
  unfold TextIn.readSome at hd
  unfold readSome
  cases n with
  | none => exact hall hd
  | some n =>
    simp only at hd ⊢
    split at hd
    · rename_i h0
      rw [if_pos h0]
      exact hall hd
    · split at hd
      · rename_i h0 h3
        rw [if_neg h0, if_pos h3]
        exact hall hd
      · rename_i h0 h3
        rw [if_neg h0, if_neg h3]
        rcases (C123_cases f).1 with ⟨t', hr⟩ | ⟨t', x, hb⟩
        · have := openStream_readable hio h hr
          rw [ht] at this
          cases this
          rw [(C123_prefix hf _).1 _ hr] at hd
          cases hd
          rfl
        · rw [(C123_prefix hf _).2 _ _ hb] at hd
          split at hd
          · rename_i h4
            cases hd
            obtain ⟨r, rfl⟩ := h2 _ _ hb
            rw [List.take_append_of_le_length (Nat.le_trans h4 (settled_le _))]
          · cases hd

/-! ## Rows -/

theorem items_readable {f : TextIn} {t : Str} (hf : Fresh f) (hr : Readable f t) :
    f.items = strItems (linesUniv t) ∧ ∀ {α : Type} (g : Gen α), f.passOn g = g := by
  have := (C123_lines hf).1 t hr
  refine ⟨by simp [TextIn.items, this], fun g => ?_⟩
  simp [TextIn.passOn, this]

theorem items_breaks {f : TextIn} {t : Str} {e : PyExc} (hf : Fresh f) (hb : Breaks f t e) :
    f.items = strItems (endedLines t) ++ [.raise] ∧
    ∀ {α : Type} (g : Gen α), f.passOn g = (g.1, if g.2 = some (.parse .inputRaised) then some e else g.2) := by
  have := (C123_lines hf).2 t e hb
  refine ⟨by simp [TextIn.items, this], fun g => ?_⟩
  obtain ⟨a, x⟩ := g
  simp only [TextIn.passOn, this, Prod.mk.injEq, true_and]
  by_cases hx : x = some (.parse .inputRaised)
  · subst hx
    simp
  · rw [if_neg hx]
    split
    · exact absurd rfl hx
    · rfl

/-- The rows of a file that breaks off are rows of every text that goes on, and there is an exception. -/
theorem passOn_breaks {f : TextIn} {t : Str} {e : PyExc} (hf : Fresh f) (hb : Breaks f t e) (limit : Int) (d : SimpleDialect) :
    (f.passOn (parseData limit d mkPlain f.items)).2 ≠ none ∧
    ∀ u, f.passOn (parseData limit d mkPlain f.items) = parseString limit d (t ++ u) ∨
      (f.passOn (parseData limit d mkPlain f.items)).2 = some e ∧
      (f.passOn (parseData limit d mkPlain f.items)).1 <+: (parseString limit d (t ++ u)).1 := by
  obtain ⟨h1, h2⟩ := items_breaks hf hb
  rw [h2, h1]
  have key : ∀ u, ∃ B, parseString limit d (t ++ u) = parseData limit d mkPlain (strItems (endedLines t) ++ B) := by
    intro u
    obtain ⟨L, hL⟩ := (C123_ended t).1 u
    refine ⟨strItems L, ?_⟩
    unfold parseString
    rw [← hL]
    simp [strItems]
  rcases parseData_raise limit d mkPlain (endedLines t) with ⟨k1, k2⟩ | ⟨k1, k2, k3⟩
  · rw [k1]
    refine ⟨by simp, fun u => .inr ⟨by simp, ?_⟩⟩
    obtain ⟨B, hB⟩ := key u
    rw [hB]
    exact k2 B
  · rw [if_neg k2]
    refine ⟨k1, fun u => .inl ?_⟩
    obtain ⟨B, hB⟩ := key u
    rw [hB, k3 B]

/-! ## Writing through a buffer -/

theorem bufferPieces_spec (sys : Sys) (io : Io) (p : Path) (c : Codec) : ∀ (pieces : List Str) (s : Nat) (buf old : Bytes) (w : World),
    w.files p = some old →
    ∃ buf' x w' cur k s' b, bufferPieces sys io p c s buf pieces w = (.ok (buf', x), w') ∧ w'.files p = some cur ∧
      (∀ q, q ≠ p → w'.files q = w.files q) ∧ w'.limit = w.limit ∧ w'.stdout = w.stdout ∧
      (x = none → k = pieces.length) ∧ c.encodeFrom s (pieces.take k).flatten = some (s', b) ∧
      cur ++ buf' = old ++ (buf ++ b) ∧
      (Quiet sys → c.encodeFrom s pieces.flatten ≠ none → x = none)
  | [], s, buf, old, w, ho =>
    ⟨buf, none, w, old, 0, s, [], rfl, ho, fun _ _ => rfl, rfl, rfl, fun _ => rfl, rfl, by simp, fun _ _ => rfl⟩
  | y :: ys, s, buf, old, w, ho => by
    rw [bufferPieces]
    cases he : c.encodeFrom s y with
    | none =>
      refine ⟨buf, some .unicodeError, w, old, 0, s, [], rfl, ho, fun _ _ => rfl, rfl, rfl, by simp, rfl, by simp, ?_⟩
      intro _ h
      rw [List.flatten_cons, encodeFrom_append, he] at h
      exact absurd rfl h
    | some z =>
      obtain ⟨s1, b1⟩ := z
      simp only
      have henc : ∀ {k s' b}, c.encodeFrom s1 (ys.take k).flatten = some (s', b) →
          c.encodeFrom s ((y :: ys).take (k + 1)).flatten = some (s', b1 ++ b) := by
        intro k s' b h
        rw [List.take_succ_cons, List.flatten_cons, encodeFrom_append, he, Option.bind_some, h]
        rfl
      have hne : c.encodeFrom s (y :: ys).flatten ≠ none → c.encodeFrom s1 ys.flatten ≠ none := by
        intro h h'
        rw [List.flatten_cons, encodeFrom_append, he, Option.bind_some, h'] at h
        exact h rfl
      generalize hn : io.flush w.ticks = n
      split
      · rename_i h0
        obtain ⟨buf', x, w', cur, k, s', b, h1, h2, h3, h4, h5, h6, h7, h8, h9⟩ :=
          bufferPieces_spec sys io p c ys s1 ((buf ++ b1).drop n) old w ho
        refine ⟨buf', x, w', cur, k + 1, s', b1 ++ b, h1, h2, h3, h4, h5, fun h => by rw [h6 h]; rfl, henc h7, ?_,
          fun q h => h9 q (hne h)⟩
        have : (buf ++ b1).drop n = buf ++ b1 := by
          have := List.take_append_drop n (buf ++ b1)
          rw [List.isEmpty_iff.mp h0] at this
          simpa using this
        rw [h8, this, List.append_assoc]
      · have ha := append_apply sys p ((buf ++ b1).take n) w
        cases hf : sys.fault w.ticks with
        | none =>
          rw [hf] at ha
          simp only at ha
          rw [ha]
          simp only
          obtain ⟨buf', x, w', cur, k, s', b, h1, h2, h3, h4, h5, h6, h7, h8, h9⟩ :=
            bufferPieces_spec sys io p c ys s1 ((buf ++ b1).drop n) (old ++ (buf ++ b1).take n)
              (w.next.set p (some ((w.files p).getD [] ++ (buf ++ b1).take n))) (by simp [ho])
          refine ⟨buf', x, w', cur, k + 1, s', b1 ++ b, h1, h2, ?_, h4, h5, fun h => by rw [h6 h]; rfl, henc h7, ?_,
            fun q h => h9 q (hne h)⟩
          · intro q hq
            rw [h3 q hq, World.set_other _ _ hq]
            rfl
          · rw [h8]
            have := List.take_append_drop n (buf ++ b1)
            simp only [List.append_assoc] at this ⊢
            rw [← List.append_assoc (List.take n (buf ++ b1)), this, List.append_assoc]
        | some j =>
          rw [hf] at ha
          simp only at ha
          rw [ha]
          simp only
          refine ⟨_, _, _, old ++ ((buf ++ b1).take n).take j, 1, s1, b1, rfl, by simp [ho], ?_, rfl, rfl, by simp, ?_, ?_, ?_⟩
          · intro q hq
            rw [World.set_other _ _ hq]
            rfl
          · simpa using he
          · have h1 := List.take_append_drop n (buf ++ b1)
            have h2 := List.take_append_drop j ((buf ++ b1).take n)
            simp only [Option.getD_some, List.append_assoc] at h1 h2 ⊢
            rw [← List.append_assoc (List.take j _), h2, h1]
          · intro hq
            rw [hq] at hf
            cases hf

/-- What has arrived in a file at the end, or when something failed. -/
def Arrived (c : Codec) (pieces : List Str) (cur : Bytes) : Prop :=
  ∃ k s b, c.encodeFrom 0 (pieces.take k).flatten = some (s, b) ∧ cur <+: b

theorem writeAndClose_spec {sys : Sys} {io : Io} {p : Path} {c : Codec} {g : Gen Str} {w w' : World} {r : Except PyExc Unit}
    (ho : w.files p = some []) (h : writeAndClose sys io p c g w = (r, w')) :
    (∀ q, q ≠ p → w'.files q = w.files q) ∧ w'.limit = w.limit ∧ w'.stdout = w.stdout ∧
    (∃ cur, w'.files p = some cur ∧ Arrived c g.1 cur) ∧
    (∀ u, r = .ok u → g.2 = none ∧ ∃ s b, c.encodeFrom 0 g.1.flatten = some (s, b) ∧ w'.files p = some b) ∧
    (Quiet sys → g.2 = none → c.encodeFrom 0 g.1.flatten ≠ none → r = .ok ()) := by
  obtain ⟨buf', x, w1, cur, k, s', b, h1, h2, h3, h4, h5, h6, h7, h8, h9⟩ := bufferPieces_spec sys io p c g.1 0 [] [] w ho
  unfold writeAndClose at h
  rw [act_bind_ok h1, act_bind, append_apply] at h
  simp only [List.nil_append] at h8
  have hset : ∀ (z : Bytes) (q : Path), q ≠ p → (w1.next.set p (some z)).files q = w.files q := by
    intro z q hq
    rw [World.set_other _ _ hq, World.next_files, h3 q hq]
  cases hf : sys.fault w1.ticks with
  | some j =>
    rw [hf] at h
    simp only [h2, Option.getD_some, Prod.mk.injEq] at h
    obtain ⟨rfl, rfl⟩ := h
    refine ⟨hset _, h4, h5, ⟨_, World.set_self _ _ _, k, s', b, h7, ?_⟩, by simp, ?_⟩
    · rw [← h8]
      exact (List.prefix_append_right_inj _).mpr (List.take_prefix _ _)
    · intro hq
      rw [hq] at hf
      cases hf
  | none =>
    rw [hf] at h
    simp only [h2, Option.getD_some] at h
    rw [h8] at h
    have key : ∀ r', (r', w1.next.set p (some b)) = (r, w') → r' = r ∧ w1.next.set p (some b) = w' := by
      intro r' h; simpa using h
    cases hx : x.orElse fun _ => g.2 with
    | none =>
      rw [hx] at h
      have hx' : x = none ∧ g.2 = none := by
        cases x <;> simp_all
      obtain ⟨rfl, rfl⟩ := key _ h
      have hk := h6 hx'.1
      rw [hk, List.take_length] at h7
      refine ⟨hset _, h4, h5, ⟨_, World.set_self _ _ _, g.1.length, s', b, by rw [List.take_length]; exact h7, List.prefix_rfl⟩,
        fun u _ => ⟨hx'.2, s', b, h7, World.set_self _ _ _⟩, fun _ _ _ => rfl⟩
    | some e =>
      rw [hx] at h
      obtain ⟨rfl, rfl⟩ := key _ h
      refine ⟨hset _, h4, h5, ⟨_, World.set_self _ _ _, k, s', b, h7, List.prefix_rfl⟩, by simp, ?_⟩
      intro q h0 h1
      rw [h9 q h1, h0] at hx
      cases hx

theorem writeThenClose_spec {sys : Sys} {io : Io} {p : Path} {c : Codec} {g : Gen Str} {w w' : World} {r : Except PyExc Unit}
    (ho : w.files p = some []) (h : writeThenClose sys io p c g w = (r, w')) :
    (∀ q, q ≠ p → w'.files q = w.files q) ∧ w'.limit = w.limit ∧ w'.stdout = w.stdout ∧
    (∃ cur, w'.files p = some cur ∧ Arrived c g.1 cur) ∧
    (∀ u, r = .ok u → g.2 = none ∧ ∃ s b, c.encodeFrom 0 g.1.flatten = some (s, b) ∧ w'.files p = some b) ∧
    (Quiet sys → g.2 = none → c.encodeFrom 0 g.1.flatten ≠ none → r = .ok ()) := by
  obtain ⟨buf', x, w1, cur, k, s', b, h1, h2, h3, h4, h5, h6, h7, h8, h9⟩ := bufferPieces_spec sys io p c g.1 0 [] [] w ho
  unfold writeThenClose at h
  rw [act_bind_ok h1] at h
  simp only [List.nil_append] at h8
  have hset : ∀ (z : Bytes) (q : Path), q ≠ p → (w1.next.set p (some z)).files q = w.files q := by
    intro z q hq
    rw [World.set_other _ _ hq, World.next_files, h3 q hq]
  have happ : ∃ (y : Except PyExc Unit) (z : Bytes), append sys p buf' w1 = (y, w1.next.set p (some z)) ∧ z <+: b ∧
      (∀ u, y = .ok u → z = b) ∧ (Quiet sys → y = .ok ()) := by
    rw [append_apply]
    cases hf : sys.fault w1.ticks with
    | some j =>
      refine ⟨_, cur ++ buf'.take j, by rw [h2]; rfl, ?_, by simp, ?_⟩
      · rw [← h8]
        exact (List.prefix_append_right_inj _).mpr (List.take_prefix _ _)
      · intro hq
        rw [hq] at hf
        cases hf
    | none => exact ⟨_, b, by rw [h2, Option.getD_some, h8], List.prefix_rfl, fun _ _ => rfl, fun _ => rfl⟩
  obtain ⟨y, z, ha, hz, hy, hq'⟩ := happ
  cases hx : x.orElse fun _ => g.2 with
  | none =>
    simp only [hx] at h
    rw [ha] at h
    simp only [Prod.mk.injEq] at h
    obtain ⟨rfl, rfl⟩ := h
    have hx' : x = none ∧ g.2 = none := by
      cases x <;> simp_all
    have hk := h6 hx'.1
    rw [hk, List.take_length] at h7
    refine ⟨hset _, h4, h5, ⟨_, World.set_self _ _ _, g.1.length, s', b, by rw [List.take_length]; exact h7, hz⟩,
      fun u hu => ⟨hx'.2, s', b, h7, by rw [World.set_self, hy u hu]⟩, fun q _ _ => hq' q⟩
  | some e =>
    simp only [hx] at h
    have hat : attempt (append sys p buf') w1 = (.ok y, w1.next.set p (some z)) := by
      simp [attempt, ha]
    rw [act_bind_ok hat] at h
    simp only [raise_apply, Prod.mk.injEq] at h
    obtain ⟨rfl, rfl⟩ := h
    refine ⟨hset _, h4, h5, ⟨_, World.set_self _ _ _, k, s', b, h7, hz⟩, by simp, ?_⟩
    intro q h0 h1
    rw [h9 q h1, h0] at hx
    cases hx

end Clever
