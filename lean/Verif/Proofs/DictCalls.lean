import Verif.Spec.DictCalls
import Verif.Proofs.DictIO

/-!
# Calls on a `DictReader`
-/

namespace Clever

open Spec

theorem gives_unique {limit : Int} {rd : Reader} {a b : List (Except PyExc (List Str))} (h : Gives limit rd a)
    (h' : Gives limit rd b) : a = b := by
  induction h generalizing b with
  | stop h _ =>
    cases h' with
    | stop => rfl
    | row h2 => rw [h] at h2; simp at h2
    | err h2 he => rw [h] at h2; simp at h2; exact absurd h2.2.symm he
  | row h _ ih =>
    cases h' with
    | stop h2 => rw [h] at h2; simp at h2
    | row h2 t => rw [h] at h2; simp at h2; obtain ⟨rfl, rfl⟩ := h2; rw [ih t]
    | err h2 he => rw [h] at h2; simp at h2
  | err h he _ ih =>
    cases h' with
    | stop h2 => rw [h] at h2; simp at h2; exact absurd h2.2 he
    | row h2 t => rw [h] at h2; simp at h2
    | err h2 he t => rw [h] at h2; simp at h2; obtain ⟨rfl, rfl⟩ := h2; rw [ih t]

theorem Delivers.stop_again {limit : Int} {cfg : Cfg} {rd rd' : Reader} {items : List Item}
    (h : Delivers limit cfg rd items) (hs : rd.next limit = (rd', .error .stopIteration)) :
    rd'.next limit = (rd', .error .stopIteration) := by
  have hn : ∃ rest, nextRow cfg mkPlain items = (.stop, rest) := by
    have := h.next.2
    rw [hs] at this
    rcases hx : nextRow cfg mkPlain items with ⟨out, rest⟩
    rw [hx] at this
    cases out <;> simp_all [outcomeExcept]
  obtain ⟨rest, hn⟩ := hn
  obtain rfl := nextRowFrom_stop_rest cfg PObj.init items rest hn
  cases h with
  | stream _ d k g hd hg =>
    cases g with
    | none =>
      simp only [Reader.next, Reader.iter, hd, bind, Except.bind, pure, Except.pure, Reader.nextGen, hn] at hs
      cases hs
      simp [Reader.next, Reader.nextGen, nextRow_nil]
    | some g =>
      simp only [Reader.next, Reader.nextGen, hg g rfl, hn] at hs
      cases hs
      simp [Reader.next, Reader.nextGen, hg g rfl, nextRow_nil]
  | started all _ d k =>
    simp only [Reader.next, Reader.nextGen, hn] at hs
    cases hs
    simp [Reader.next, Reader.nextGen, nextRow_nil]
  | fresh _ d k hd =>
    simp only [Reader.next, Reader.iter, hd, bind, Except.bind, pure, Except.pure, Reader.nextGen, hn] at hs
    cases hs
    simp [Reader.next, Reader.nextGen, nextRow_nil]

theorem Delivers.gives {limit : Int} {cfg : Cfg} : ∀ (n : Nat) {rd : Reader} {items : List Item},
    items.length < n → Delivers limit cfg rd items →
    ∃ outs, Gives limit rd outs ∧ outs.length ≤ items.length ∧
      (∀ rows, parseRows cfg mkPlain items = (rows, none) → outs = rows.map .ok)
  | 0, _, _, h, _ => by omega
  | n + 1, rd, items, hn, h => by
    obtain ⟨h1, h2⟩ := h.next
    have hp := parseRows_eq cfg mkPlain items
    have hlt : items ≠ [] → (nextRow cfg mkPlain items).2.length < items.length :=
      nextRowFrom_lt cfg mkPlain PObj.init items
    have hnil : items = [] → (nextRow cfg mkPlain items) = (.stop, []) := by
      rintro rfl; exact nextRow_nil _ _
    rcases hx : rd.next limit with ⟨rd', res⟩
    rcases hy : nextRow cfg mkPlain items with ⟨out, rest⟩
    rw [hx, hy] at h1 h2
    rw [hy] at hp hlt hnil
    simp only at h1 h2
    subst h2
    cases out with
    | stop => exact ⟨[], .stop hx (h.stop_again hx), by simp, by rw [hp]; rintro rows h; simp at h; simp [← h]⟩
    | row row =>
      have hl := hlt (fun he => absurd (hnil he) (by simp))
      obtain ⟨outs, a, b, c⟩ := Delivers.gives n (by simp only at hl; omega) h1
      refine ⟨.ok row :: outs, .row hx a, by simp only at hl; simp; omega, ?_⟩
      rintro rows h
      rw [hp] at h
      simp only [Prod.mk.injEq] at h
      rw [← h.1, c _ (Prod.ext rfl h.2)]
      rfl
    | error e =>
      have hl := hlt (fun he => absurd (hnil he) (by simp))
      obtain ⟨outs, a, b, -⟩ := Delivers.gives n (by simp only at hl; omega) h1
      refine ⟨.error (.parse e) :: outs, .err hx (by simp) a, by simp only at hl; simp; omega, ?_⟩
      rintro rows h
      rw [hp] at h
      simp at h

/-- A reader with a configuration for the parser. -/
def DeliversSome (limit : Int) (rd : Reader) : Prop := ∃ cfg items, Delivers limit cfg rd items

theorem DeliversSome.next {limit : Int} {rd : Reader} (h : DeliversSome limit rd) : DeliversSome limit (rd.next limit).1 := by
  obtain ⟨cfg, items, h⟩ := h
  exact ⟨cfg, _, h.next.1⟩

theorem DeliversSome.length_le {limit : Int} {rd : Reader} (h : DeliversSome limit rd) {outs : List (Except PyExc (List Str))}
    (hg : Gives limit rd outs) : outs.length ≤ rd.left := by
  obtain ⟨cfg, items, h⟩ := h
  obtain ⟨o, a, b, -⟩ := Delivers.gives (items.length + 1) (by omega) h
  rw [gives_unique hg a, h.left]
  exact b

/-- `skipBlank` and `pastBlank`. -/
theorem skipBlank_gives {limit : Int} : ∀ (n : Nat) (rd : Reader) (row : List Str) (outs : List (Except PyExc (List Str))),
    Gives limit rd outs → DeliversSome limit rd → outs.length < n →
    match pastBlank (.ok row :: outs) with
    | [] => ∃ rd', skipBlank limit n rd row = (rd', .error .stopIteration) ∧ Gives limit rd' [] ∧ DeliversSome limit rd'
    | .ok row' :: outs' => ∃ rd', skipBlank limit n rd row = (rd', .ok row') ∧ Gives limit rd' outs' ∧ DeliversSome limit rd'
    | .error e :: outs' => ∃ rd', skipBlank limit n rd row = (rd', .error e) ∧ Gives limit rd' outs' ∧ DeliversSome limit rd'
  | 0, _, _, _, _, _, h => by omega
  | n + 1, rd, row, outs, hg, hp, hn => by
    by_cases hr : row = []
    · subst hr
      rw [pastBlank, skipBlank, if_pos rfl]
      have hp' := hp.next
      cases hg with
      | stop h h' =>
        rw [h] at hp'
        simp only [pastBlank, h]
        exact ⟨_, rfl, .stop h' h', hp'⟩
      | row h t =>
        rw [h] at hp'
        simp only [h]
        exact skipBlank_gives n _ _ _ t hp' (by simp at hn; omega)
      | err h he t =>
        rw [h] at hp'
        simp only [pastBlank, h]
        exact ⟨_, rfl, t, hp'⟩
    · rw [pastBlank.eq_2 _ (by rintro o h; simp at h; exact hr h.1)]
      exact ⟨rd, by rw [skipBlank, if_neg hr], hg, hp⟩

/-- `next` of a `DictReader` with known field names. -/
theorem next_gives {limit : Int} {rd : Reader} {outs : List (Except PyExc (List Str))} (hg : Gives limit rd outs)
    (hp : DeliversSome limit rd) (f : List Key) (restkey : Key) (k : Nat) :
    ∃ rd' k', (⟨rd, some f, restkey, k⟩ : DictReader).call limit .next =
        (⟨rd', some f, restkey, k'⟩, (dictStep restkey f outs).1) ∧
      Gives limit rd' (dictStep restkey f outs).2 ∧ DeliversSome limit rd' ∧
      (∀ d, (dictStep restkey f outs).1 = .dict d → k' = rd'.lineNum) := by
  obtain ⟨k0, hk0⟩ : ∃ k0, (⟨rd, some f, restkey, k⟩ : DictReader).next limit =
      (match rd.next limit with
      | (rd, .error e) => (⟨rd, some f, restkey, k0⟩, .error e)
      | (rd, .ok row) =>
        match skipBlank limit (rd.left + 1) rd row with
        | (rd', .error e) => (⟨rd', some f, restkey, rd.lineNum⟩, .error e)
        | (rd', .ok row) => (⟨rd', some f, restkey, rd'.lineNum⟩, .ok (rowDict f restkey row)) :
          DictReader × Except PyExc (List (Key × DVal))) := by
    by_cases hk : k = 0
    · refine ⟨rd.lineNum, ?_⟩
      simp only [DictReader.next, hk, if_true, DictReader.getFieldnames]
      rcases rd.next limit with ⟨rd1, res⟩
      cases res with
      | error e => rfl
      | ok row =>
        simp only
        rcases skipBlank limit (rd1.left + 1) rd1 row with ⟨rd2, res⟩
        cases res <;> rfl
    · refine ⟨k, ?_⟩
      simp only [DictReader.next, hk, if_false, DictReader.getFieldnames]
      rcases rd.next limit with ⟨rd1, res⟩
      cases res with
      | error e => rfl
      | ok row =>
        simp only
        rcases skipBlank limit (rd1.left + 1) rd1 row with ⟨rd2, res⟩
        cases res <;> rfl
  simp only [DictReader.call, hk0]
  have hp' := hp.next
  cases hg with
  | stop h h' =>
    rw [h] at hp'
    simp only [h, dictStep, pastBlank]
    exact ⟨_, _, rfl, .stop h' h', hp', by simp⟩
  | err h he t =>
    rw [h] at hp'
    simp only [h, dictStep, pastBlank]
    exact ⟨_, _, rfl, t, hp', by simp⟩
  | @row _ rd1 row outs1 h t =>
    rw [h] at hp'
    simp only [h]
    have := skipBlank_gives (rd1.left + 1) rd1 row outs1 t hp' (by have := DeliversSome.length_le hp' t; simp only at this; omega)
    simp only [dictStep]
    split at this
    · next hb =>
      obtain ⟨rd2, a, b, c⟩ := this
      rw [hb, a]
      exact ⟨_, _, rfl, b, c, by simp⟩
    · next hb =>
      obtain ⟨rd2, a, b, c⟩ := this
      rw [hb, a]
      exact ⟨_, _, rfl, b, c, fun _ _ => rfl⟩
    · next hb =>
      obtain ⟨rd2, a, b, c⟩ := this
      rw [hb, a]
      exact ⟨_, _, rfl, b, c, by simp⟩

/-- The calls on a `DictReader` are those of the specification. -/
theorem calls_gives {limit : Int} (restkey : Key) (cs : List DCall) : ∀ {rd : Reader}
    {outs : List (Except PyExc (List Str))}, Gives limit rd outs → DeliversSome limit rd →
    (∀ (f : List Key) (k : Nat), DictReader.calls limit ⟨rd, some f, restkey, k⟩ cs =
      dictCalls restkey (some f) outs cs) ∧
    DictReader.calls limit ⟨rd, none, restkey, 0⟩ cs = dictCalls restkey none outs cs := by
  induction cs with
  | nil => intro rd outs _ _; exact ⟨fun f k => by simp [DictReader.calls, dictCalls], by simp [DictReader.calls, dictCalls]⟩
  | cons c cs ih =>
    intro rd outs hg hp
    have hsome : ∀ (f : List Key) (k : Nat), DictReader.calls limit ⟨rd, some f, restkey, k⟩ (c :: cs) =
        dictCalls restkey (some f) outs (c :: cs) := by
      intro f k
      cases c with
      | next =>
        obtain ⟨rd', k', a, b, c, -⟩ := next_gives hg hp f restkey k
        rw [DictReader.calls, a, dictCalls]
        simp only
        rw [(ih b c).1]
      | names =>
        simp only [DictReader.calls, DictReader.call, DictReader.getFieldnames, dictCalls]
        rw [(ih hg hp).1]
      | setNames f' =>
        simp only [DictReader.calls, DictReader.call, dictCalls]
        rw [(ih hg hp).1]
    refine ⟨hsome, ?_⟩
    have hp' := hp.next
    cases c with
    | setNames f' =>
      simp only [DictReader.calls, DictReader.call, dictCalls]
      rw [(ih hg hp).1]
    | names =>
      cases hg with
      | stop h h' =>
        rw [h] at hp'
        simp only [DictReader.calls, DictReader.call, DictReader.getFieldnames, h, dictCalls]
        rw [(ih (.stop h' h') hp').2]
      | row h t =>
        rw [h] at hp'
        simp only [DictReader.calls, DictReader.call, DictReader.getFieldnames, h, dictCalls]
        rw [(ih t hp').1]
      | err h he t =>
        rw [h] at hp'
        simp only [DictReader.calls, DictReader.call, DictReader.getFieldnames, h, dictCalls]
        rename_i e _
        cases e <;> first
          | exact absurd rfl he
          | rw [(ih t hp').2]
    | next =>
      cases hg with
      | stop h h' =>
        rw [h] at hp'
        simp only [DictReader.calls, DictReader.call, DictReader.next, if_true, DictReader.getFieldnames, h, h', dictCalls]
        rw [(ih (.stop h' h') hp').2]
      | @row _ rd1 row outs1 h t =>
        rw [h] at hp'
        have hstep : (⟨rd, none, restkey, 0⟩ : DictReader).call limit .next =
            (⟨rd1, some (row.map some), restkey, rd1.lineNum⟩ : DictReader).call limit .next := by
          by_cases hk : rd1.lineNum = 0
          · simp only [DictReader.call, DictReader.next, if_true, DictReader.getFieldnames, h, hk]
          · simp only [DictReader.call, DictReader.next, if_true, DictReader.getFieldnames, h, hk, if_false]
        obtain ⟨rd', k', a, b, c, -⟩ := next_gives t hp' (row.map some) restkey rd1.lineNum
        rw [DictReader.calls, hstep, a, dictCalls]
        simp only
        rw [(ih b c).1]
      | err h he t =>
        rw [h] at hp'
        simp only [DictReader.calls, DictReader.call, DictReader.next, if_true, DictReader.getFieldnames, h, dictCalls]
        rename_i e _
        cases e <;> first
          | exact absurd rfl he
          | rw [(ih t hp').2]

/-- A reader that was just made and gives something has a configuration for the parser. -/
theorem Gives.parses {limit : Int} {rd : Reader} {outs : List (Except PyExc (List Str))} (h : Gives limit rd outs) :
    ∀ (source : Source) (d : SimpleDialect), rd = ⟨source, d, 0, none⟩ → DeliversSome limit rd := by
  intro source d hrd
  cases hc : d.cfg limit with
  | ok cfg =>
    subst hrd
    refine ⟨cfg, source.items, ?_⟩
    cases source with
    | stream items => exact .stream _ _ _ _ hc (by simp)
    | seq items => exact .fresh _ _ _ hc
  | error e =>
    exfalso
    have hne := cfg_error_ne_stop hc
    have hnext : rd.next limit = (rd, .error e) := by
      subst hrd
      simp only [Reader.next, Reader.iter, hc, bind, Except.bind]
    clear hrd
    induction h with
    | stop h => rw [hnext] at h; simp at h; exact hne h.2
    | row h => rw [hnext] at h; simp at h
    | err h _ _ ih =>
      have h2 := h
      rw [hnext] at h
      simp at h
      exact ih (by rw [← h.1]; exact hnext)

end Clever
