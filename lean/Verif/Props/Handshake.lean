import Verif.Spec.Handshake
import Verif.Props.Simple

/-! C135: a client that asks before it sends a body. -/

namespace HT
open Spec

/-- The states that can be reached. -/
inductive Met (t : Talk) : Talking → Prop
  | start : Met t ⟨.start, .idle, [], []⟩
  | w0 : t.waits = true → Met t ⟨.waiting, .idle, [.head t.headers], []⟩
  | wr : t.waits = true → t.reaction t.headers = .read → Met t ⟨.waiting, .reading [], [], []⟩
  | wa : t.waits = true → t.reaction t.headers = .ask → Met t ⟨.waiting, .reading [], [], [100]⟩
  | ws {x} : t.waits = true → t.reaction t.headers = .stop x → Met t ⟨.waiting, .finished none, [], [x]⟩
  | wc : t.waits = true → t.reaction t.headers = .crash → Met t ⟨.waiting, .crashed, [], []⟩
  | si {sent rest} : t.waits = false → t.parts = sent ++ rest →
      Met t ⟨.sending rest, .idle, .head t.headers :: sent.map .part, []⟩
  | sr {a b rest d g u} : t.parts = a ++ b ++ rest → g = a.flatten → u = b.map .part →
      (t.reaction t.headers = .read ∧ t.waits = false ∧ d = [] ∨ t.reaction t.headers = .ask ∧ (d = [] ∨ d = [100])) →
      Met t ⟨.sending rest, .reading g, u, d⟩
  | ss {sent rest x} : t.waits = false → t.reaction t.headers = .stop x → t.parts = sent ++ rest →
      Met t ⟨.sending rest, .finished none, sent.map .part, [x]⟩
  | sc {sent rest} : t.waits = false → t.reaction t.headers = .crash → t.parts = sent ++ rest →
      Met t ⟨.sending rest, .crashed, sent.map .part, []⟩
  | li : t.waits = false → Met t ⟨.listening, .idle, .head t.headers :: (t.parts.map .part ++ [.fin]), []⟩
  | lr {a b d g u} : t.parts = a ++ b → g = a.flatten → u = b.map .part ++ [.fin] →
      (t.reaction t.headers = .read ∧ t.waits = false ∧ d = [] ∨ t.reaction t.headers = .ask ∧ (d = [] ∨ d = [100])) →
      Met t ⟨.listening, .reading g, u, d⟩
  | ls {x} : t.waits = false → t.reaction t.headers = .stop x →
      Met t ⟨.listening, .finished none, t.parts.map .part ++ [.fin], [x]⟩
  | lc : t.waits = false → t.reaction t.headers = .crash → Met t ⟨.listening, .crashed, t.parts.map .part ++ [.fin], []⟩
  | lf {d} : d = [] ∨ d = [100] →
      (t.reaction t.headers = .read ∧ t.waits = false ∨ t.reaction t.headers = .ask) →
      Met t ⟨.listening, .finished (some t.parts.flatten), [], d ++ [t.answer t.parts.flatten]⟩
  | ds {x u} : t.reaction t.headers = .stop x → (t.waits = true → u = []) → Met t ⟨.done x, .finished none, u, []⟩
  | df : (t.reaction t.headers = .read ∧ t.waits = false ∨ t.reaction t.headers = .ask) →
      Met t ⟨.done (t.answer t.parts.flatten), .finished (some t.parts.flatten), [], []⟩

theorem expect_error {h : Headers} {x : Nat} (he : Expect.fromHeaders h = .err x) : x = 400 := by
  cases hg : h.get s!!"expect" with
  | none => rw [(C59_reads h).1 hg] at he; simp at he
  | some vs =>
    rcases List.eq_nil_or_concat vs with rfl | ⟨vs, v, rfl⟩
    · unfold Expect.fromHeaders readLast at he
      rw [show Expect.name = s!!"expect" from rfl, hg] at he
      cases he
    · rw [(C59_reads h).2 vs v (by simpa using hg)] at he
      split at he
      · simp at he
      · simpa using he.symm

theorem stop_final {t : Talk} (hf : t.Final) {h : Headers} {x : Nat} (hr : t.reaction h = .stop x) : x ≠ 100 := by
  unfold Talk.reaction at hr
  split at hr
  · simp at hr
  · split at hr
    · rename_i s hs
      simp only [Reaction.stop.injEq] at hr
      intro hx
      exact hf.refusal (by rw [hs, hr, hx])
    · simp at hr
  · rename_i s hs
    simp only [Reaction.stop.injEq] at hr
    have := expect_error hs
    omega
  · simp at hr

theorem met_hop {t : Talk} (hf : t.Final) {a b : Talking} (h : Met t a) (s : Hop t a b) : Met t b := by
  cases h with
  | start =>
    cases s with
    | ask h => exact .w0 h
    | send h => exact .si (sent := []) h rfl
  | w0 h =>
    cases s with
    | read hr => exact .wr h hr
    | invite hr => exact .wa h hr
    | stop hr => exact .ws h hr
    | crash hr => exact .wc h hr
  | wr h hr => cases s
  | wa h hr =>
    cases s with
    | goOn => exact .sr (a := []) (b := []) rfl rfl rfl (.inr ⟨hr, .inl rfl⟩)
    | refused h => exact absurd rfl h
  | ws h hr =>
    cases s with
    | goOn =>
      exact absurd rfl (stop_final hf hr)
    | refused hx => exact .ds hr fun _ => rfl
  | wc h hr => cases s
  | si h hp =>
    rename_i sent rest
    cases s with
    | part =>
      rename_i p ps
      have := Met.si (t := t) (sent := sent ++ [p]) (rest := ps) h (by simpa using hp)
      simpa using this
    | fin => have := Met.li h; simp at hp; rw [← hp]; simpa using this
    | read hr => exact .sr (a := []) (b := sent) (by simpa using hp) rfl rfl (.inl ⟨hr, h, rfl⟩)
    | invite hr => exact .sr (a := []) (b := sent) (by simpa using hp) rfl rfl (.inr ⟨hr, .inr rfl⟩)
    | stop hr => exact .ss h hr hp
    | crash hr => exact .sc h hr hp
  | sr hp hg hu hd =>
    rename_i a b rest d g u
    cases s with
    | part =>
      rename_i p ps
      exact .sr (a := a) (b := b ++ [p]) (by simp [hp]) hg (by simp [hu]) hd
    | fin => exact .lr (a := a) (b := b) (by simpa using hp) hg (by simp [hu]) hd
    | take =>
      rename_i p u'
      obtain ⟨q, b', rfl⟩ : ∃ q b', b = q :: b' := by
        cases b with
        | nil => simp at hu
        | cons q b' => exact ⟨q, b', rfl⟩
      simp only [List.map_cons, List.cons.injEq, Sent.part.injEq] at hu
      exact .sr (a := a ++ [q]) (b := b') (by simp [hp]) (by simp [hg, hu.1]) hu.2 hd
    | answer =>
      cases b <;> simp at hu
  | ss h hr hp =>
    rename_i sent rest x
    cases s with
    | part =>
      rename_i p ps
      have := Met.ss (t := t) (sent := sent ++ [p]) (rest := ps) h hr (by simpa using hp)
      simpa using this
    | fin => simp at hp; subst hp; exact .ls h hr
  | sc h hr hp =>
    rename_i sent rest
    cases s with
    | part =>
      rename_i p ps
      have := Met.sc (t := t) (sent := sent ++ [p]) (rest := ps) h hr (by simpa using hp)
      simpa using this
    | fin => simp at hp; subst hp; exact .lc h hr
  | li h =>
    cases s with
    | read hr => exact .lr (a := []) (b := t.parts) rfl rfl rfl (.inl ⟨hr, h, rfl⟩)
    | invite hr => exact .lr (a := []) (b := t.parts) rfl rfl rfl (.inr ⟨hr, .inr rfl⟩)
    | stop hr => exact .ls h hr
    | crash hr => exact .lc h hr
  | lr hp hg hu hd =>
    rename_i a b d g u
    cases s with
    | passOver =>
      rename_i d'
      rcases hd with ⟨-, -, h⟩ | ⟨hr, h | h⟩
      · simp at h
      · simp at h
      · exact .lr hp hg hu (.inr ⟨hr, .inl (by simpa using h)⟩)
    | hear hx =>
      rcases hd with ⟨-, -, h⟩ | ⟨hr, h | h⟩
      · simp at h
      · simp at h
      · simp at h; exact absurd h.1 hx
    | take =>
      rename_i p u'
      obtain ⟨q, b', rfl⟩ : ∃ q b', b = q :: b' := by
        cases b with
        | nil => simp at hu
        | cons q b' => exact ⟨q, b', rfl⟩
      simp only [List.map_cons, List.cons_append, List.cons.injEq, Sent.part.injEq] at hu
      exact .lr (a := a ++ [q]) (b := b') (by simp [hp]) (by simp [hg, hu.1]) hu.2 hd
    | answer =>
      rename_i u'
      cases b with
      | cons q b' => simp at hu
      | nil =>
        simp at hu hp
        subst hu hg
        rw [← hp]
        rcases hd with ⟨hr, hw, rfl⟩ | ⟨hr, h⟩
        · exact .lf (d := []) (.inl rfl) (.inl ⟨hr, hw⟩)
        · exact .lf h (.inr hr)
  | ls h hr =>
    cases s with
    | passOver => exact absurd rfl (stop_final hf hr)
    | hear hx => exact .ds hr fun hw => by rw [h] at hw; simp at hw
  | lc h hr => cases s
  | lf hd hr =>
    rename_i d
    rcases hd with rfl | rfl
    · generalize hb : [] ++ [t.answer t.parts.flatten] = l at s
      cases s with
      | passOver => simp at hb; exact absurd hb.1 (hf.answer _)
      | hear hx => simp at hb; obtain ⟨rfl, rfl⟩ := hb; exact .df hr
    · generalize hb : [100] ++ [t.answer t.parts.flatten] = l at s
      cases s with
      | passOver => simp at hb; subst hb; exact .lf (d := []) (.inl rfl) hr
      | hear hx => simp at hb; exact absurd hb.1.symm hx
  | ds hr hw => cases s
  | df => cases s

theorem met {t : Talk} (hf : t.Final) {n : Nat} {a : Talking} (h : Hops t n a) : Met t a := by
  induction h with
  | zero => exact .start
  | succ _ s ih => exact met_hop hf ih s

/-- Whether a state that was met is the end, if it is not a deadlock. -/
theorem met_next {t : Talk} (hf : t.Final) {a : Talking} (h : Met t a)
    (hc : t.reaction t.headers ≠ .crash) (hw : t.waits = true → t.reaction t.headers ≠ .read) :
    Answered a ∨ ∃ b, Hop t a b := by
  cases h with
  | start =>
    right
    cases hw : t.waits with
    | true => exact ⟨_, .ask hw⟩
    | false => exact ⟨_, .send hw⟩
  | w0 h =>
    right
    cases hr : t.reaction t.headers with
    | read => exact ⟨_, .read hr⟩
    | ask => exact ⟨_, .invite hr⟩
    | stop x => exact ⟨_, .stop hr⟩
    | crash => exact ⟨_, .crash hr⟩
  | wr h hr => exact absurd hr (hw h)
  | wa => exact .inr ⟨_, .goOn⟩
  | ws h hr => exact .inr ⟨_, .refused (stop_final hf hr)⟩
  | wc h hr => exact absurd hr hc
  | @si _ rest => right; cases rest; exacts [⟨_, .fin⟩, ⟨_, .part⟩]
  | @sr _ _ rest => right; cases rest; exacts [⟨_, .fin⟩, ⟨_, .part⟩]
  | @ss _ rest => right; cases rest; exacts [⟨_, .fin⟩, ⟨_, .part⟩]
  | @sc _ rest => right; cases rest; exacts [⟨_, .fin⟩, ⟨_, .part⟩]
  | li h =>
    right
    cases hr : t.reaction t.headers with
    | read => exact ⟨_, .read hr⟩
    | ask => exact ⟨_, .invite hr⟩
    | stop x => exact ⟨_, .stop hr⟩
    | crash => exact ⟨_, .crash hr⟩
  | @lr a b d g u hp hg hu =>
    subst hu
    right
    cases b; exacts [⟨_, .answer⟩, ⟨_, .take⟩]
  | ls h hr => exact .inr ⟨_, .hear (stop_final hf hr)⟩
  | lc h hr => exact absurd hr hc
  | lf hd =>
    right
    rcases hd with rfl | rfl
    · exact ⟨_, .hear (hf.answer _)⟩
    · exact ⟨_, .passOver⟩
  | ds => exact .inl ⟨_, rfl⟩
  | df => exact .inl ⟨_, rfl⟩

/-- What the server does about the headers, by their values. -/
theorem reaction_of (t : Talk) :
    (t.headers.get s!!"expect" = none → t.reaction t.headers = .read) ∧
    (∀ vs v, t.headers.get s!!"expect" = some (vs ++ [v]) → t.reaction t.headers =
      if v = s!!"100-continue" then (match t.refusal with | some s => .stop s | none => .ask) else .stop 400) ∧
    (t.headers.get s!!"expect" = some [] → t.reaction t.headers = .crash) := by
  refine ⟨fun h => ?_, fun vs v h => ?_, fun h => ?_⟩
  · unfold Talk.reaction; rw [(C59_reads _).1 h]
  · unfold Talk.reaction; rw [(C59_reads _).2 vs v h]
    by_cases hv : v = s!!"100-continue"
    · rw [if_pos hv, if_pos hv]; rfl
    · rw [if_neg hv, if_neg hv]
  · have : Expect.fromHeaders t.headers = .panic := by
      unfold Expect.fromHeaders readLast
      rw [show Expect.name = s!!"expect" from rfl, h]
      rfl
    unfold Talk.reaction; rw [this]

/-- Client and server never wait for each other forever exactly if there is an expectation, whatever its text, or the client
does not wait. -/
theorem C135_never_stuck_iff (t : Talk) (hf : t.Final) :
    NeverStuck t ↔ (t.headers.get s!!"expect" = none ∧ t.waits = false) ∨
      ∃ vs v, t.headers.get s!!"expect" = some (vs ++ [v]) := by
  obtain ⟨r1, r2, r3⟩ := reaction_of t
  constructor
  · intro hn
    cases hg : t.headers.get s!!"expect" with
    | none =>
      refine .inl ⟨rfl, ?_⟩
      cases hw : t.waits with
      | false => rfl
      | true =>
        exfalso
        have h1 : Hops t 1 ⟨.waiting, .idle, [.head t.headers], []⟩ := .succ .zero (.ask hw)
        have h2 : Hops t 2 ⟨.waiting, .reading [], [], []⟩ := .succ h1 (.read (r1 hg))
        rcases hn _ _ h2 with ⟨s, hs⟩ | ⟨b, hb⟩
        · simp at hs
        · cases hb
    | some vs =>
      right
      rcases List.eq_nil_or_concat vs with rfl | ⟨vs, v, rfl⟩
      · exfalso
        have hr := r3 hg
        cases hw : t.waits with
        | true =>
          have h1 : Hops t 1 ⟨.waiting, .idle, [.head t.headers], []⟩ := .succ .zero (.ask hw)
          have h2 : Hops t 2 ⟨.waiting, .crashed, [], []⟩ := .succ h1 (.crash hr)
          rcases hn _ _ h2 with ⟨s, hs⟩ | ⟨b, hb⟩
          · simp at hs
          · cases hb
        | false =>
          have h1 : Hops t 1 ⟨.sending t.parts, .idle, [.head t.headers], []⟩ := .succ .zero (.send hw)
          have h2 : Hops t 2 ⟨.sending t.parts, .crashed, [], []⟩ := .succ h1 (.crash hr)
          have key : ∀ (ps : List (List Byte)) n u, Hops t n ⟨.sending ps, .crashed, u, []⟩ →
              ∃ n u, Hops t n ⟨.listening, .crashed, u, []⟩ := by
            intro ps
            induction ps with
            | nil => intro n u h; exact ⟨_, _, .succ h .fin⟩
            | cons p ps ih => intro n u h; exact ih _ _ (.succ h .part)
          obtain ⟨n, u, h3⟩ := key _ _ _ h2
          rcases hn _ _ h3 with ⟨s, hs⟩ | ⟨b, hb⟩
          · simp at hs
          · cases hb
      · exact ⟨vs, v, by simp⟩
  · rintro h n a ha
    refine met_next hf (met hf ha) ?_ ?_
    · rcases h with ⟨h, -⟩ | ⟨vs, v, h⟩
      · rw [r1 h]; decide
      · rw [r2 vs v h]; split
        · split <;> simp
        · simp
    · intro hw
      rcases h with ⟨-, h⟩ | ⟨vs, v, h⟩
      · rw [hw] at h; simp at h
      · rw [r2 vs v h]; split
        · split <;> simp
        · simp

/-- A client that waits, and a server with nothing to wait for. -/
example : ¬ NeverStuck ⟨[], true, [[1]], none, fun _ => 200⟩ := by
  rw [C135_never_stuck_iff _ ⟨by simp, by simp⟩]
  simp [Headers.get, FMap.get]

example : NeverStuck ⟨oneHeader s!!"expect" s!!"100-continue", true, [[1]], none, fun _ => 200⟩ :=
  (C135_never_stuck_iff _ ⟨by simp, by simp⟩).2 (.inr ⟨[], s!!"100-continue", by decide⟩)

/-- What is left to do. -/
def toDo (t : Talk) (a : Talking) : Nat :=
  (match a.client with
    | .start => 2 * t.parts.length + 6
    | .waiting => 2 * t.parts.length + 3
    | .sending ps => 2 * ps.length + 3
    | .listening => 0
    | .done _ => 0) +
  (a.up.map fun | .head _ => 2 | .part _ => 1 | .fin => 2).sum + a.down.length

theorem toDo_hop {t : Talk} {a b : Talking} (s : Hop t a b) : toDo t b < toDo t a := by
  cases s <;> simp only [toDo, List.map_append, List.map_cons, List.map_nil, List.sum_append, List.sum_cons, List.sum_nil,
    List.length_append, List.length_cons, List.length_nil] <;> omega

/-- It is over after two steps for every part and six more, in whatever order the two make them. -/
theorem C135_bound (t : Talk) (n : Nat) (a : Talking) (h : Hops t n a) : n ≤ 2 * t.parts.length + 6 := by
  have : n + toDo t a ≤ 2 * t.parts.length + 6 := by
    induction h with
    | zero => simp [toDo, Talk.opening]
    | succ _ s ih => have := toDo_hop s; omega
  omega

/-- As many as that are made. -/
example : ∃ a, Hops ⟨oneHeader s!!"expect" s!!"100-continue", true, [[1]], none, fun _ => 200⟩ 8 a ∧ Answered a := by
  have h0 : Hops ⟨oneHeader s!!"expect" s!!"100-continue", true, [[1]], none, fun _ => 200⟩ 0 Talk.opening := .zero
  have h1 := Hops.succ h0 (.ask rfl)
  have h2 := Hops.succ h1 (.invite (by decide +kernel))
  have h3 := Hops.succ h2 .goOn
  have h4 := Hops.succ h3 .part
  have h5 := Hops.succ h4 .fin
  have h6 := Hops.succ h5 .take
  have h7 := Hops.succ h6 .answer
  have h8 := Hops.succ h7 (.hear (by decide))
  exact ⟨_, h8, _, rfl⟩

theorem asked_headers {h h' : Headers} (ha : applyHeader h s!!"expect" Expect.value = .ok h') :
    h'.get s!!"expect" = some ([] ++ [s!!"100-continue"]) := by
  unfold Expect.value at ha
  rw [applyHeader_ok] at ha
  cases ha
  exact get_set_self _ _ _

/-- A client that writes the expectation with the type into any headers and waits: it never gets stuck, and wherever it ends,
the server has the whole body and the client the answer to it; or the server refused, and nothing more is under way. -/
theorem C135_asked_partial (t : Talk) (hf : t.Final) (h : Headers)
    (ha : applyHeader h s!!"expect" Expect.value = .ok t.headers) (hw : t.waits = true) :
    NeverStuck t ∧ ∀ n a, Hops t n a → (¬ ∃ b, Hop t a b) →
      a = match t.refusal with
        | none => ⟨.done (t.answer t.parts.flatten), .finished (some t.parts.flatten), [], []⟩
        | some s => ⟨.done s, .finished none, [], []⟩ := by
  have hg := asked_headers ha
  have hr := (reaction_of t).2.1 _ _ hg
  simp only [if_true] at hr
  have hn : NeverStuck t := (C135_never_stuck_iff t hf).2 (.inr ⟨_, _, hg⟩)
  refine ⟨hn, fun n a hh hs => ?_⟩
  have hm := met hf hh
  rcases hn n a hh with ⟨s, hd⟩ | hx
  · cases hm <;> simp at hd
    · rename_i x u hr' hu
      cases he : t.refusal with
      | none => rw [hr, he] at hr'; simp at hr'
      | some y => rw [hr, he] at hr'; simp at hr'; simp [hu hw, hr']
    · rename_i hr'
      cases he : t.refusal with
      | none => rfl
      | some y => rw [hr, he] at hr'; simp at hr'
  · exact absurd hx hs

/-- With a body of two parts; what was expected before is replaced. -/
example (n : Nat) (a : Talking)
    (h : Hops ⟨[(s!!"expect", [s!!"100-continue"])], true, [[1, 2], [3]], none, fun b => 200 + b.length⟩ n a)
    (hs : ¬ ∃ b, Hop ⟨[(s!!"expect", [s!!"100-continue"])], true, [[1, 2], [3]], none, fun b => 200 + b.length⟩ a b) :
    a.client = .done 203 ∧ a.server = .finished (some [1, 2, 3]) := by
  rw [(C135_asked_partial _ ⟨by simp, by simp; omega⟩ [(s!!"expect", [s!!"x", s!!"y"])] (by decide +kernel) rfl).2 n a h hs]
  exact ⟨rfl, rfl⟩

/-- If the server refuses, nothing of the body is ever sent. -/
theorem C135_refused (t : Talk) (hf : t.Final) (h : Headers) (s : Nat)
    (ha : applyHeader h s!!"expect" Expect.value = .ok t.headers) (hw : t.waits = true) (hs : t.refusal = some s)
    (n : Nat) (a : Talking) (hh : Hops t n a) : a.up = [] ∨ a.up = [.head t.headers] := by
  have hg := asked_headers ha
  have hr := (reaction_of t).2.1 _ _ hg
  simp only [if_true, hs] at hr
  have hm := met hf hh
  cases hm <;> simp_all

example (n : Nat) (a : Talking) (h : Hops ⟨[(s!!"expect", [s!!"100-continue"])], true, [[1, 2], [3]], some 417, fun _ => 200⟩ n a) :
    a.up.length ≤ 1 := by
  rcases C135_refused _ ⟨by simp, by simp⟩ [] 417 (by decide +kernel) rfl rfl n a h with h | h <;> simp [h]

/-- A client that does not ask, or sends at once though it asked: whatever the order, in the end the server has the body if it
reads it, and the client the answer; a request refused by its headers is answered without the body. -/
theorem C135_not_waiting (t : Talk) (hf : t.Final) (hw : t.waits = false) (n : Nat) (a : Talking) (hh : Hops t n a)
    (hs : ¬ ∃ b, Hop t a b) :
    (t.headers.get s!!"expect" = none →
      a = ⟨.done (t.answer t.parts.flatten), .finished (some t.parts.flatten), [], []⟩) ∧
    (∀ vs, t.headers.get s!!"expect" = some (vs ++ [s!!"100-continue"]) →
      match t.refusal with
      | none => a = ⟨.done (t.answer t.parts.flatten), .finished (some t.parts.flatten), [], []⟩
      | some s => a.client = .done s ∧ a.server = .finished none) ∧
    ∀ vs v, t.headers.get s!!"expect" = some (vs ++ [v]) → v ≠ s!!"100-continue" →
      a.client = .done 400 ∧ a.server = .finished none := by
  obtain ⟨r1, r2, r3⟩ := reaction_of t
  have hm := met hf hh
  refine ⟨fun hg => ?_, fun vs hg => ?_, fun vs v hg hv => ?_⟩
  · have hr := r1 hg
    rcases (C135_never_stuck_iff t hf).2 (.inl ⟨hg, hw⟩) n a hh with ⟨s, hd⟩ | hx
    · cases hm <;> simp_all
    · exact absurd hx hs
  · have hr := r2 vs _ hg
    rcases (C135_never_stuck_iff t hf).2 (.inr ⟨_, _, hg⟩) n a hh with ⟨s, hd⟩ | hx
    · cases he : t.refusal <;> cases hm <;> simp_all
    · exact absurd hx hs
  · have hr := r2 vs _ hg
    rw [if_neg hv] at hr
    rcases (C135_never_stuck_iff t hf).2 (.inr ⟨_, _, hg⟩) n a hh with ⟨s, hd⟩ | hx
    · cases hm <;> simp_all
    · exact absurd hx hs

example (n : Nat) (a : Talking) (h : Hops ⟨[], false, [[1, 2], [3]], some 417, fun _ => 200⟩ n a)
    (hs : ¬ ∃ b, Hop ⟨[], false, [[1, 2], [3]], some 417, fun _ => 200⟩ a b) : a.client = .done 200 := by
  rw [(C135_not_waiting _ ⟨by simp, by simp⟩ rfl n a h hs).1 rfl]

/-- Violated: an expectation counts in any letter case (RFC 9110, 10.1.1), but a client that waits with one in another case, or
with any other text, ends with status 400 and its body unsent, though the server would take the body. -/
theorem C135_violated_letter_case (t : Talk) (hf : t.Final) (hw : t.waits = true) (vs : List Str) (v : Str)
    (hg : t.headers.get s!!"expect" = some (vs ++ [v])) (hv : v ≠ s!!"100-continue") (n : Nat) (a : Talking) (hh : Hops t n a)
    (hs : ¬ ∃ b, Hop t a b) : a = ⟨.done 400, .finished none, [], []⟩ := by
  have hr := (reaction_of t).2.1 vs _ hg
  rw [if_neg hv] at hr
  have hm := met hf hh
  rcases (C135_never_stuck_iff t hf).2 (.inr ⟨_, _, hg⟩) n a hh with ⟨s, hd⟩ | hx
  · cases hm <;> simp_all
  · exact absurd hx hs

example (n : Nat) (a : Talking) (h : Hops ⟨oneHeader s!!"expect" s!!"100-Continue", true, [[1]], none, fun _ => 200⟩ n a)
    (hs : ¬ ∃ b, Hop ⟨oneHeader s!!"expect" s!!"100-Continue", true, [[1]], none, fun _ => 200⟩ a b) :
    a.client = .done 400 := by
  rw [C135_violated_letter_case _ ⟨by simp, by simp⟩ rfl [] s!!"100-Continue" (by decide) (by decide) n a h hs]

end HT
