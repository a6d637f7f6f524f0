import Verif.Spec.Wrap
import Verif.Props.Body
import Verif.Props.Headers
import Verif.Props.HeaderIter
import Verif.Props.Whole

/-!
C91: messages, trailers and connections pass calls on.
-/

namespace HT
open Spec

variable {Url σ κ : Type} {T : κ → Type}

/-- A request with another body. -/
def ReqVal.withBody {β : Type} (r : ReqVal Url β T) (b : β) : ReqVal Url β T := { r with msg := { r.msg with body := b } }

/-- A response with another body. -/
def RespVal.withBody {β : Type} (r : RespVal β T) (b : β) : RespVal β T := { r with msg := { r.msg with body := b } }

theorem reads_request (I : ReaderI σ) (r : ReqVal Url (Body σ) T) (ns : List Nat) :
    reads (ReqVal.readerI I) r ns =
      ((reads (Body.readerI I) r.msg.body ns).1, r.withBody (reads (Body.readerI I) r.msg.body ns).2) := by
  induction ns generalizing r with
  | nil => rfl
  | cons n ns ih =>
    simp only [reads, ReqVal.readerI] at ih ⊢
    rw [ih]
    rfl

theorem reads_response (I : ReaderI σ) (r : RespVal (Body σ) T) (ns : List Nat) :
    reads (RespVal.readerI I) r ns =
      ((reads (Body.readerI I) r.msg.body ns).1, r.withBody (reads (Body.readerI I) r.msg.body ns).2) := by
  induction ns generalizing r with
  | nil => rfl
  | cons n ns ih =>
    simp only [reads, RespVal.readerI] at ih ⊢
    rw [ih]
    rfl

/-- C91: reading a request directly and then converting its body to bytes loses nothing and repeats nothing: whatever
buffer sizes are used, what was read directly followed by the result of `body_bytes` is what the body held within its
declared length, unless a poll of the conversion failed (422). The declared length does not change, nor does anything
else of the request. -/
theorem C91_request {I : ReaderI σ} (e : σ) (r : ReqVal Url (Body σ) T) {d : List Byte}
    (hi : ∀ l, r.len = some l → r.msg.body.bytesRead ≤ l) (h : Holds I r.msg.body.reader d) (ns : List Nat) :
    let q := (reads (ReqVal.readerI I) r ns).2
    q.len = r.len ∧ q.withBody r.msg.body = r ∧
      ∀ ms, (∀ m ∈ ms, m ≠ 0) → ∀ res, (q.bodyInto (Body.iface e) fun b => b.intoBytes I ms).1 = some res →
        (∃ rest, res = .ok rest ∧ delivered (reads (ReqVal.readerI I) r ns).1 ++ rest = remaining r.msg.body d) ∨
          (res = .err 422 ∧ .err ∈ (reads (ReqVal.readerI I) q ms).1) := by
  intro q
  obtain ⟨d', h1, h2, h3, h4⟩ := body_after (b := r.msg.body) hi h ns
  have hq : q = r.withBody (reads (Body.readerI I) r.msg.body ns).2 := by
    show (reads (ReqVal.readerI I) r ns).2 = _
    rw [reads_request]
  refine ⟨by rw [hq]; exact h2, by rw [hq]; rfl, fun ms hms res hres => ?_⟩
  rw [hq] at hres
  rcases C11_into_bytes h1 h3 hms hres with rfl | ⟨rfl, he⟩
  · exact .inl ⟨_, rfl, by rw [reads_request]; exact h4.symm⟩
  · exact .inr ⟨rfl, by rw [reads_request, hq]; exact he⟩

example : let r : ReqVal Str (Body (List Byte)) (fun _ : Unit => Unit) :=
      ⟨.put, s!!"u", ⟨[], Body.fromBytes [1, 2, 3, 4, 5]⟩, none, none, none, Extensions.new, .fresh⟩
    let x := reads (ReqVal.readerI cursorI) r [2]
    delivered x.1 = [1, 2] ∧ (x.2.bodyInto (Body.iface []) fun b => b.intoBytes cursorI [8, 8]).1 = some (.ok [3, 4, 5]) := by
  decide

/-- C91: the same for a response. -/
theorem C91_response {I : ReaderI σ} (e : σ) (r : RespVal (Body σ) T) {d : List Byte}
    (hi : ∀ l, r.len = some l → r.msg.body.bytesRead ≤ l) (h : Holds I r.msg.body.reader d) (ns : List Nat) :
    let q := (reads (RespVal.readerI I) r ns).2
    q.len = r.len ∧ q.withBody r.msg.body = r ∧
      ∀ ms, (∀ m ∈ ms, m ≠ 0) → ∀ res, (q.bodyInto (Body.iface e) fun b => b.intoBytes I ms).1 = some res →
        (∃ rest, res = .ok rest ∧ delivered (reads (RespVal.readerI I) r ns).1 ++ rest = remaining r.msg.body d) ∨
          (res = .err 422 ∧ .err ∈ (reads (RespVal.readerI I) q ms).1) := by
  intro q
  obtain ⟨d', h1, h2, h3, h4⟩ := body_after (b := r.msg.body) hi h ns
  have hq : q = r.withBody (reads (Body.readerI I) r.msg.body ns).2 := by
    show (reads (RespVal.readerI I) r ns).2 = _
    rw [reads_response]
  refine ⟨by rw [hq]; exact h2, by rw [hq]; rfl, fun ms hms res hres => ?_⟩
  rw [hq] at hres
  rcases C11_into_bytes h1 h3 hms hres with rfl | ⟨rfl, he⟩
  · exact .inl ⟨_, rfl, by rw [reads_response]; exact h4.symm⟩
  · exact .inr ⟨rfl, by rw [reads_response, hq]; exact he⟩

/-- Two bytes read directly, the other three with `body_bytes`. -/
example : let r : RespVal (Body (List Byte)) (fun _ : Unit => Unit) :=
      ⟨.ok, ⟨[], Body.fromBytes [1, 2, 3, 4, 5]⟩, none, .fresh, .fresh, Extensions.new, none, none⟩
    let x := reads (RespVal.readerI cursorI) r [2]
    delivered x.1 = [1, 2] ∧ (x.2.bodyInto (Body.iface []) fun b => b.intoBytes cursorI [8, 8]).1 = some (.ok [3, 4, 5]) := by
  decide

theorem runOps_request (I : ReaderI σ) (r : ReqVal Url (Body σ) T) (cur : List Byte) (os : List ROp) :
    runOps (ReqVal.readerI I) (r, cur) os = (runOps (Body.readerI I) (r.msg.body, cur) os).map fun x =>
      (x.1, x.2.1, (r.withBody x.2.2.1, x.2.2.2)) := by
  induction os generalizing r cur with
  | nil => rfl
  | cons o os ih =>
    cases o with
    | read n =>
      simp only [runOps, opStep]
      have := ih ((ReqVal.readerI I).pollRead r n).2 []
      simp only [ReqVal.readerI] at this ⊢
      rw [this]
      cases runOps (Body.readerI I) (((Body.readerI I).pollRead r.msg.body n).2, []) os <;> rfl
    | fill =>
      simp only [runOps, opStep]
      have := ih ((ReqVal.readerI I).fillBuf r).2 (bytesOf ((ReqVal.readerI I).fillBuf r).1)
      simp only [ReqVal.readerI] at this ⊢
      rw [this]
      cases runOps (Body.readerI I) (((Body.readerI I).fillBuf r.msg.body).2,
        bytesOf ((Body.readerI I).fillBuf r.msg.body).1) os <;> rfl
    | consume k =>
      simp only [runOps, opStep]
      by_cases hk : k ≤ cur.length
      · simp only [hk, if_true]
        have := ih ((ReqVal.readerI I).consume r k) (cur.drop k)
        simp only [ReqVal.readerI] at this ⊢
        rw [this]
        cases runOps (Body.readerI I) ((Body.readerI I).consume r.msg.body k, cur.drop k) os <;> rfl
      · simp only [hk, if_false]
        rfl

theorem runOps_response (I : ReaderI σ) (r : RespVal (Body σ) T) (cur : List Byte) (os : List ROp) :
    runOps (RespVal.readerI I) (r, cur) os = (runOps (Body.readerI I) (r.msg.body, cur) os).map fun x =>
      (x.1, x.2.1, (r.withBody x.2.2.1, x.2.2.2)) := by
  induction os generalizing r cur with
  | nil => rfl
  | cons o os ih =>
    cases o with
    | read n =>
      simp only [runOps, opStep]
      have := ih ((RespVal.readerI I).pollRead r n).2 []
      simp only [RespVal.readerI] at this ⊢
      rw [this]
      cases runOps (Body.readerI I) (((Body.readerI I).pollRead r.msg.body n).2, []) os <;> rfl
    | fill =>
      simp only [runOps, opStep]
      have := ih ((RespVal.readerI I).fillBuf r).2 (bytesOf ((RespVal.readerI I).fillBuf r).1)
      simp only [RespVal.readerI] at this ⊢
      rw [this]
      cases runOps (Body.readerI I) (((Body.readerI I).fillBuf r.msg.body).2,
        bytesOf ((Body.readerI I).fillBuf r.msg.body).1) os <;> rfl
    | consume k =>
      simp only [runOps, opStep]
      by_cases hk : k ≤ cur.length
      · simp only [hk, if_true]
        have := ih ((RespVal.readerI I).consume r k) (cur.drop k)
        simp only [RespVal.readerI] at this ⊢
        rw [this]
        cases runOps (Body.readerI I) ((Body.readerI I).consume r.msg.body k, cur.drop k) os <;> rfl
      · simp only [hk, if_false]
        rfl

/-- C91: any mixture of plain and buffered reads of a message has the outcomes and the bytes of the same calls on its
body, leaves the body those calls leave, and changes nothing else. -/
theorem C91_mixed (I : ReaderI σ) (os : List ROp) (cur : List Byte) :
    (∀ r : ReqVal Url (Body σ) T, runOps (ReqVal.readerI I) (r, cur) os =
      (runOps (Body.readerI I) (r.msg.body, cur) os).map fun x => (x.1, x.2.1, (r.withBody x.2.2.1, x.2.2.2))) ∧
    ∀ r : RespVal (Body σ) T, runOps (RespVal.readerI I) (r, cur) os =
      (runOps (Body.readerI I) (r.msg.body, cur) os).map fun x => (x.1, x.2.1, (r.withBody x.2.2.1, x.2.2.2)) :=
  ⟨fun r => runOps_request I r cur os, fun r => runOps_response I r cur os⟩

example : let r : RespVal (Body (List Byte)) (fun _ : Unit => Unit) :=
      ⟨.ok, ⟨[], Body.fromBytes [1, 2, 3]⟩, none, .fresh, .fresh, Extensions.new, none, none⟩
    (runOps (RespVal.readerI cursorI) (r, []) [.fill, .consume 2, .read 5]).map (fun x => x.2.1) = some [1, 2, 3] := by
  decide

theorem trailers_step (t : Trailers) (o : HOp) : (t.step o).headers = o.step t.headers := by
  cases o <;> rfl

theorem trailers_run (h : List HOp) : (h.foldl Trailers.step Trailers.new).headers = HOp.run h := by
  unfold HOp.run
  have : ∀ (t : Trailers) (m : Headers), t.headers = m → (h.foldl Trailers.step t).headers = h.foldl HOp.step m := by
    intro t m e
    induction h generalizing t m with
    | nil => exact e
    | cons o h ih => exact ih _ _ (by rw [trailers_step, e])
  exact this _ _ rfl

/-- C91: trailers are a header collection: after any history of calls a name has exactly the values the history says,
a clone too, insertion and removal return what was there, a rejected value changes nothing, and indexing panics exactly
for absent or non-ASCII names. -/
theorem C91_trailers (h : List HOp) (n : Str) :
    let t := h.foldl Trailers.step Trailers.new
    (t.get n = if Ascii n then .ok (lookup h.reverse n) else .panic) ∧ t.clone.get n = t.get n ∧
      (Ascii n → ∀ a, ((t.insert n a).2 = if (writeValues a).isSome then .ok (lookup h.reverse n) else .err 500) ∧
        (writeValues a = none → (t.insert n a).1 = t ∧ (t.append n a) = (t, .err 500)) ∧
        (t.remove n).2 = .ok (lookup h.reverse n)) ∧
      ∀ vs, t.indexStr n = .ok vs ↔ Ascii n ∧ lookup h.reverse n = some vs := by
  intro t
  have ht : t.headers = HOp.run h := trailers_run h
  have hg : t.get n = if Ascii n then .ok (lookup h.reverse n) else .panic := by
    show t.headers.getStr n = _
    rw [ht]; exact C02_get_run h n
  refine ⟨hg, rfl, fun hn a => ⟨?_, fun ha => ?_, ?_⟩, fun vs => ?_⟩
  · show (t.headers.insertStr n a).2 = _
    rw [ht]
    cases ha : writeValues a with
    | some vs => exact (C02_returns_previous h n hn a).1 vs ha
    | none =>
      have : ∃ s, a = .str s ∧ ¬ Ascii s := by
        cases a with
        | str s =>
          refine ⟨s, rfl, fun hs => ?_⟩
          simp only [writeValues] at ha
          rw [if_pos (by simpa [Ascii] using hs)] at ha
          cases ha
        | value v => cases ha
        | slice vs => cases ha
        | values vs => cases ha
      rw [((C03_rejected_write (HOp.run h) n hn a).1 this).1]
      rfl
  · have : ∃ s, a = .str s ∧ ¬ Ascii s := by
      cases a with
      | str s =>
        refine ⟨s, rfl, fun hs => ?_⟩
        simp only [writeValues] at ha
        rw [if_pos (by simpa [Ascii] using hs)] at ha
        cases ha
      | value v => cases ha
      | slice vs => cases ha
      | values vs => cases ha
    have h3 := (C03_rejected_write t.headers n hn a).1 this
    refine ⟨?_, ?_⟩
    · show (⟨(t.headers.insertStr n a).1⟩ : Trailers) = t
      rw [h3.1]
    · show ((⟨(t.headers.appendStr n a).1⟩ : Trailers), (t.headers.appendStr n a).2) = (t, _)
      rw [h3.2]
  · show (t.headers.removeStr n).2 = _
    rw [ht]
    exact (C02_returns_previous h n hn a).2
  · have hg' : t.headers.getStr n = _ := hg
    show t.headers.indexStr n = .ok vs ↔ _
    unfold Headers.indexStr HeaderName.fromStr
    unfold Headers.getStr HeaderName.ofStr HeaderName.fromStr at hg'
    by_cases hn : isAscii n = true
    · rw [if_pos hn] at hg' ⊢
      rw [if_pos ((spec_ascii_iff n).mpr hn)] at hg'
      simp only [Res.map_ok, Res.ok.injEq] at hg'
      show Res.unwrap (t.headers.get (lower n)) = .ok vs ↔ _
      rw [hg']
      cases lookup h.reverse n <;> simp [Res.unwrap, (spec_ascii_iff n).mpr hn]
    · rw [if_neg hn]
      simp only [spec_ascii_iff]
      simp [hn]

example : ([HOp.insert s!!"Expires" (.str s!!"0"), .append s!!"expires" (.str s!!"1")].foldl Trailers.step Trailers.new).get
    s!!"EXPIRES" = .ok (some [s!!"0", s!!"1"]) := by decide

/-- Whatever passes every call on to a collection shows the history of that collection. -/
theorem shows_of {μ : Type} (V : HeaderViews μ) (x : μ) (hd : μ → Headers) (h : List HOp) (hp : (HOp.run h).Perm (hd x))
    (h1 : ∀ x n, V.get x n = (hd x).getStr n) (h2 : ∀ n, V.index x n = (hd x).indexStr n) (h3 : V.iter x = (hd x).iter)
    (h4 : V.names x = (hd x).names) (h5 : V.values x = (hd x).values)
    (h6 : ∀ f, hd (V.iterMut x f) = (hd x).iterMut f) : ShowsHistory V x h := by
  have hg : ∀ n, V.get x n = if Ascii n then .ok (lookup h.reverse n) else .panic := by
    intro n
    rw [h1, ← C02_get_run h n]
    unfold Headers.getStr
    by_cases hn : isAscii n = true
    · rw [HeaderName.ofStr_ascii hn, Res.map_ok, Res.map_ok]
      exact congrArg _ (FMap.get_perm (HOp.wf_run h) hp _)
    · rw [HeaderName.ofStr_not_ascii (by simpa using hn)]; rfl
  have hi : ∀ n vs, V.index x n = .ok vs ↔ Ascii n ∧ lookup h.reverse n = some vs := by
    intro n vs
    rw [h2, (C07_index_str _ n).1 vs, ← h1, hg]
    by_cases hn : Ascii n <;> simp [hn]
  have hl : (V.iter x).sizeHint.1 = (hd x).length := by rw [h3]; rfl
  refine ⟨hg, hi, fun n hno => ?_, fun k hk n vs => ?_, fun k => ?_, fun k => ?_, ?_, fun f n hn hu => ?_⟩
  · cases hc : V.index x n with
    | ok vs => exact absurd hc (hno vs)
    | err e => exact absurd (h2 n ▸ hc) ((C07_index_str _ n).2.2 e)
    | panic => rfl
  · rw [h3]
    exact (C80_iter h (hd x) hp k (hl ▸ hk)).1 n vs
  · rw [h3, MapIter.take_eq]
    exact ((List.take_sublist k _).map Prod.fst).nodup ((HOp.wf_run h).perm hp)
  · rw [h3, h4, MapIter.take_eq, MapIter.take_eq]
    simp [Headers.names, Headers.iter, FMap.keys, List.map_take]
  · rw [h5, h3, MapIter.take_eq, Values.collect_eq]
    simp [Headers.values, Values.new, Values.remaining, FMap.vals, Headers.iter, MapIter.sizeHint]
  · rw [h1, h6]
    exact (C80_iter_mut h (hd x) hp f).2 n hn hu

/-- C91: trailers, requests and responses show their headers as the collection would, in every way of looking: by name,
by index, by the iterators over headers, names and values, and through the mutable iterator; whatever calls made the
collection and in whatever order it is visited. -/
theorem C91_views (h : List HOp) :
    (∀ t : Trailers, (HOp.run h).Perm t.headers → ShowsHistory Trailers.views t h) ∧
      (∀ (Url β κ : Type) (T : κ → Type) (r : ReqVal Url β T), (HOp.run h).Perm r.msg.headers →
        ShowsHistory (ReqVal.views Url β T) r h) ∧
      ∀ (β κ : Type) (T : κ → Type) (r : RespVal β T), (HOp.run h).Perm r.msg.headers →
        ShowsHistory (RespVal.views β T) r h :=
  ⟨fun t hp => shows_of _ t Trailers.headers h hp (fun _ _ => rfl) (fun _ => rfl) rfl rfl rfl fun _ => rfl,
    fun _ _ _ _ r hp => shows_of _ r (fun r => r.msg.headers) h hp (fun _ _ => rfl) (fun _ => rfl) rfl rfl rfl fun _ => rfl,
    fun _ _ _ r hp => shows_of _ r (fun r => r.msg.headers) h hp (fun _ _ => rfl) (fun _ => rfl) rfl rfl rfl fun _ => rfl⟩

/-- Trailers made by a history show it. -/
example (h : List HOp) : ShowsHistory Trailers.views (h.foldl Trailers.step Trailers.new) h :=
  (C91_views h).1 _ (trailers_run h ▸ List.Perm.refl _)

/-- C91: a message is empty, and has the length, its body has, whatever was read of it. -/
theorem C91_length (I : ReaderI σ) (ns : List Nat) :
    (∀ r : ReqVal Url (Body σ) T, (reads (ReqVal.readerI I) r ns).2.len = r.msg.body.length ∧
      (reads (ReqVal.readerI I) r ns).2.isEmpty = r.msg.body.length.map (· == 0)) ∧
    ∀ r : RespVal (Body σ) T, (reads (RespVal.readerI I) r ns).2.len = r.msg.body.length ∧
      (reads (RespVal.readerI I) r ns).2.isEmpty = r.msg.body.length.map (· == 0) := by
  have key : ∀ b : Body σ, (reads (Body.readerI I) b ns).2.length = b.length := by
    induction ns with
    | nil => exact fun _ => rfl
    | cons n ns ih =>
      intro b
      show (reads (Body.readerI I) (b.pollRead I n).2 ns).2.length = b.length
      rw [ih]
      have hc : ∀ x, (b.counted x).2.length = b.length := by
        rintro ⟨p, r⟩
        cases p <;> rfl
      unfold Body.pollRead
      split
      · exact hc _
      · split
        · rfl
        · split
          · rfl
          · exact hc _
  refine ⟨fun r => ?_, fun r => ?_⟩
  · rw [reads_request]
    exact ⟨key _, congrArg (Option.map (· == 0)) (key _)⟩
  · rw [reads_response]
    exact ⟨key _, congrArg (Option.map (· == 0)) (key _)⟩

example : let r : RespVal (Body (List Byte)) (fun _ : Unit => Unit) :=
      ⟨.ok, ⟨[], Body.fromBytes [1, 2, 3]⟩, none, .fresh, .fresh, Extensions.new, none, none⟩
    (reads (RespVal.readerI cursorI) r [2]).2.len = some 3 ∧ (reads (RespVal.readerI cursorI) r [2, 2]).2.isEmpty = some false := by
  decide

theorem talk_connection (D : DuplexI σ) (c : Connection σ) (os : List DOp) :
    talk (Connection.duplexI D) c os = ((talk D c.inner os).1, ⟨(talk D c.inner os).2⟩) := by
  induction os generalizing c with
  | nil => rfl
  | cons o os ih =>
    cases o <;> simp only [talk, Connection.duplexI] at ih ⊢ <;> rw [ih]

/-- C91: every call on an upgraded connection gets the answer of the same call on the transport it was made of, so the
transport accepts the same bytes in the same order and ends in the same state. -/
theorem C91_connection (D : DuplexI σ) (s : σ) (os : List DOp) :
    (talk (Connection.duplexI D) (Connection.new s) os).1 = (talk D s os).1 ∧
      (talk (Connection.duplexI D) (Connection.new s) os).2.inner = (talk D s os).2 ∧
      accepted os (talk (Connection.duplexI D) (Connection.new s) os).1 = accepted os (talk D s os).1 := by
  rw [talk_connection]
  exact ⟨rfl, rfl, rfl⟩

/-- A transport that echoes, two bytes at a time. -/
example : let D : DuplexI (List Byte) :=
      ⟨fun s n => (.ok (s.take n), s.drop n), fun s bs => (some (.ok (min 2 bs.length)), s ++ bs.take 2),
        fun s => (some (.ok ()), s), fun s => (some (.ok ()), s)⟩
    (talk (Connection.duplexI D) (Connection.new []) [.write [1, 2, 3], .write [3], .read 2]).2.inner = [3] := by
  decide

end HT
