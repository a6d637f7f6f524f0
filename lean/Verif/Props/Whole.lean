import Verif.Spec.Whole
import Verif.Lemmas.Headers
import Verif.Props.Message
import Verif.Props.Extensions
import Verif.Props.Body

/-! Requests and responses as a whole: C76, C77. -/

namespace HT
open Spec

variable {Url β : Type} {κ : Type} [DecidableEq κ] {T : κ → Type}

theorem newest_snoc {α : Type} (a b : α) (l : List α) : newest a (l ++ [b]) = b := by simp [newest]

theorem lookup_cons (o : HOp) (h : List HOp) (n : Str) : lookup (o :: h) n = lookupStep n (lookup h n) o := by
  cases o with
  | insert k a => simp only [lookup, lookupStep]; cases sameName k n <;> cases writeValues a <;> rfl
  | append k a => simp only [lookup, lookupStep]; cases sameName k n <;> cases writeValues a <;> rfl
  | remove k => rfl
  | extend k vs => rfl
  | setAt k i v => rfl
  | drain k o => rfl

theorem sameName_self {n : Str} (hn : isAscii n = true) : sameName n n = true := by
  rw [sameName_iff]; exact ⟨hn, hn, rfl⟩

theorem get_step_eq {m : Headers} (hm : FMap.WF m) (o : HOp) {n : Str} (hn : isAscii n = true) :
    Headers.get (o.step m) (lower n) = lookupStep n (Headers.get m (lower n)) o := by
  cases hg : Headers.get m (lower n) with
  | none => rw [HOp.get_step hm o hn [] hg, lookup_cons]; rfl
  | some vs =>
    rw [HOp.get_step hm o hn [.insert n (.values vs)] (by simp [lookup, sameName_self hn, writeValues, hg]), lookup_cons]
    simp [lookup, sameName_self hn, writeValues]

/-- A message seen through lookups. -/
theorem getStr_ascii (h : Headers) {n : Str} (hn : Ascii n) : h.getStr n = .ok (h.get (lower n)) := by
  unfold Headers.getStr
  rw [HeaderName.ofStr_ascii (isAscii_iff.mpr hn)]
  rfl

theorem get_setContentType (m : Msg β) (mime : Mime) {n : Str} (hn : isAscii n = true) :
    (m.setContentType mime).2.headers.get (lower n) =
      if sameName s!!"content-type" n then some [mime.display] else m.headers.get (lower n) := by
  rw [setContentType_eq]
  simp only [Headers.get, FMap.get_set]
  by_cases h : CONTENT_TYPE = lower n
  · rw [if_pos h, if_pos ((sameName_iff _ _).mpr ⟨by decide, hn, by rw [← h]; decide⟩)]
  · rw [if_neg h, if_neg]
    intro hs
    exact h (by rw [← ((sameName_iff _ _).mp hs).2.2]; decide)

/-- Invariant of messages: no name is stored twice, and the message is what its history says. -/
def MsgInv (I : BodyI β) (m : Msg β) (evs : List (MsgEv β)) : Prop := FMap.WF m.headers ∧ MsgIs I m evs

theorem msgInv_new (I : BodyI β) : MsgInv I (Msg.new I) [] :=
  ⟨List.nodup_nil, rfl, fun n hn => by rw [getStr_ascii _ hn]; rfl⟩

theorem msgInv_header {I : BodyI β} {m : Msg β} {evs : List (MsgEv β)} (h : MsgInv I m evs) (o : HOp) :
    MsgInv I { m with headers := o.step m.headers } (evs ++ [.header o]) := by
  refine ⟨HOp.wf_step h.1 o, ?_, fun n hn => ?_⟩
  · simpa [List.filterMap_append, List.filterMap_cons, bodyOf] using h.2.1
  · have h1 := h.2.2 n hn
    rw [getStr_ascii _ hn] at h1 ⊢
    rw [List.foldl_append, get_step_eq h.1 o (isAscii_iff.mpr hn), Res.ok.inj h1]
    rfl

theorem msgInv_contentType {I : BodyI β} {m : Msg β} {evs : List (MsgEv β)} (h : MsgInv I m evs) (mime : Mime) :
    MsgInv I (m.setContentType mime).2 (evs ++ [.contentType mime]) := by
  refine ⟨FMap.wf_set h.1 _ _, ?_, fun n hn => ?_⟩
  · simpa [List.filterMap_append, List.filterMap_cons, bodyOf, setContentType_eq] using h.2.1
  · have h1 := h.2.2 n hn
    rw [getStr_ascii _ hn] at h1 ⊢
    rw [List.foldl_append, get_setContentType m mime (isAscii_iff.mpr hn), Res.ok.inj h1]
    rfl

theorem msgInv_body {I : BodyI β} {m : Msg β} {evs : List (MsgEv β)} (h : MsgInv I m evs) (o : MOp β) :
    MsgInv I (o.step I m) (evs ++ [.body (stored I o)]) := by
  have hct : Headers.get m.headers CONTENT_TYPE = evs.foldl (headerStep I CONTENT_TYPE) none := by
    have := h.2.2 CONTENT_TYPE (by decide)
    rw [getStr_ascii _ (by decide)] at this
    exact Res.ok.inj this
  have hb : (o.step I m).body = newest I.empty ((evs ++ [MsgEv.body (stored I o)]).filterMap bodyOf) := by
    rw [C12_new_body, List.filterMap_append]
    exact (newest_snoc _ _ _).symm
  have hw : FMap.WF (o.step I m).headers := by
    rw [(step_body I m o).2]
    unfold Msg.copyContentType
    repeat' split
    · exact h.1
    · exact FMap.wf_set h.1 _ _
    · exact h.1
  refine ⟨hw, hb, fun n hn => ?_⟩
  have h1 := h.2.2 n hn
  rw [getStr_ascii _ hn] at h1 ⊢
  rw [List.foldl_append]
  have h2 := Res.ok.inj h1
  congr 1
  show _ = headerStep I n (evs.foldl (headerStep I n) none) (.body (stored I o))
  rw [← h2]
  simp only [headerStep]
  by_cases hs : sameName s!!"content-type" n = true
  · have hl : lower n = CONTENT_TYPE := by rw [← ((sameName_iff _ _).mp hs).2.2]; decide
    rw [if_pos hs, hl]
    cases hg : m.headers.get CONTENT_TYPE with
    | none => rw [(C12_absent I m o hg).2]; rfl
    | some vs => rw [C12_present I m o (by rw [hg]; simp), hg]; rfl
  · have hl : lower n ≠ CONTENT_TYPE := fun hl => hs ((sameName_iff _ _).mpr ⟨by decide, isAscii_iff.mpr hn, by rw [hl]; decide⟩)
    rw [if_neg hs]
    cases hg : m.headers.get CONTENT_TYPE with
    | none => exact (C12_absent I m o hg).1 _ hl
    | some vs => rw [C12_present I m o (by rw [hg]; simp)]

/-! ### Requests -/

/-- After any calls on a new request every part is what the calls about that part say: the last method, version and
addresses set, the URL changed by the URL calls only, one slot per type of the extensions, the last body, and under
each name the outcome of the header calls, with the media type of the first body under `Content-Type` when there was
none. -/
theorem C76_request (I : BodyI β) (m : Method) (u : Url) {r : ReqVal Url β T} (hr : ReqVal.new I m (some u) = .ok r)
    (ops : List (ReqOp Url β T)) :
    let q := ops.foldl (ReqOp.step I) r
    q.method = newest m (ops.filterMap methodOf) ∧ q.url = (ops.filterMap urlOf).foldl (fun u f => f u) u ∧
      q.version = newest none (ops.filterMap versionOf) ∧ q.peerAddr = newest none (ops.filterMap peerOf) ∧
      q.localAddr = newest none (ops.filterMap localOf) ∧
      (∀ k, q.ext.get k = slot k (ops.filterMap extOf)) ∧ MsgIs I q.msg (ops.filterMap (msgOf I)) := by
  cases hr
  have key : ∀ q : ReqVal Url β T, q = ops.foldl (ReqOp.step I) ⟨m, u, Msg.new I, none, none, none, Extensions.new, .fresh⟩ →
      q.method = newest m (ops.filterMap methodOf) ∧ q.url = (ops.filterMap urlOf).foldl (fun u f => f u) u ∧
      q.version = newest none (ops.filterMap versionOf) ∧ q.peerAddr = newest none (ops.filterMap peerOf) ∧
      q.localAddr = newest none (ops.filterMap localOf) ∧
      q.ext = Extensions.run (ops.filterMap extOf) ∧ MsgInv I q.msg (ops.filterMap (msgOf I)) := by
    induction ops using List.reverseRecOn with
    | nil => intro q hq; subst hq; exact ⟨rfl, rfl, rfl, rfl, rfl, rfl, msgInv_new I⟩
    | append_singleton ops o ih =>
      intro q hq
      rw [List.foldl_append] at hq
      obtain ⟨h1, h2, h3, h4, h5, h6, h7⟩ := ih _ rfl
      simp only [List.foldl_cons, List.foldl_nil] at hq
      generalize ops.foldl (ReqOp.step I) _ = p at hq h1 h2 h3 h4 h5 h6 h7
      subst hq
      simp only [List.filterMap_append]
      cases o <;>
        simp only [ReqOp.step, List.filterMap_cons, List.filterMap_nil, methodOf, urlOf, versionOf, peerOf, localOf, extOf,
          msgOf, List.append_nil, newest_snoc, List.foldl_append, List.foldl_cons, List.foldl_nil, h1, h2, h3, h4, h5, h6,
          true_and]
      case setContentType mime => exact msgInv_contentType h7 mime
      case header o => exact msgInv_header h7 o
      case body o => exact msgInv_body h7 o
      case ext o => exact ⟨by unfold Extensions.run; rw [List.foldl_append]; rfl, h7⟩
      all_goals exact h7
  obtain ⟨h1, h2, h3, h4, h5, h6, h7⟩ := key _ rfl
  refine ⟨h1, h2, h3, h4, h5, fun k => ?_, h7.2⟩
  rw [h6, C15_get]

example : ∃ r : ReqVal Str (Option Mime) (fun _ : Unit => Nat), ReqVal.new ⟨id, none⟩ .get (some s!!"u") = .ok r ∧
    ([.setMethod .put, .body (.set (some Mime.HTML)), .setMethod .patch].foldl (ReqOp.step ⟨id, none⟩) r).method = .patch :=
  ⟨_, rfl, rfl⟩

/-- The same for responses. -/
theorem C76_response (I : BodyI β) (s : StatusArg) (c : StatusCode) (hc : s.tryInto = some c) {r : RespVal β T}
    (hr : RespVal.new I s = .ok r) (ops : List (RespOp β T)) :
    let q := ops.foldl (RespOp.step I) r
    q.status = newest c (ops.filterMap statusOfR) ∧
      q.version = newest none (ops.filterMap versionOfR) ∧ q.peerAddr = newest none (ops.filterMap peerOfR) ∧
      q.localAddr = newest none (ops.filterMap localOfR) ∧
      (∀ k, q.ext.get k = slot k (ops.filterMap extOfR)) ∧ MsgIs I q.msg (ops.filterMap (msgOfR I)) := by
  unfold RespVal.new at hr
  rw [hc] at hr
  cases hr
  have key : ∀ q : RespVal β T, q = ops.foldl (RespOp.step I) ⟨c, Msg.new I, none, .fresh, .fresh, Extensions.new, none, none⟩ →
      q.status = newest c (ops.filterMap statusOfR) ∧
      q.version = newest none (ops.filterMap versionOfR) ∧ q.peerAddr = newest none (ops.filterMap peerOfR) ∧
      q.localAddr = newest none (ops.filterMap localOfR) ∧
      q.ext = Extensions.run (ops.filterMap extOfR) ∧ MsgInv I q.msg (ops.filterMap (msgOfR I)) := by
    induction ops using List.reverseRecOn with
    | nil => intro q hq; subst hq; exact ⟨rfl, rfl, rfl, rfl, rfl, msgInv_new I⟩
    | append_singleton ops o ih =>
      intro q hq
      rw [List.foldl_append] at hq
      obtain ⟨h1, h3, h4, h5, h6, h7⟩ := ih _ rfl
      simp only [List.foldl_cons, List.foldl_nil] at hq
      generalize ops.foldl (RespOp.step I) _ = p at hq h1 h3 h4 h5 h6 h7
      subst hq
      simp only [List.filterMap_append]
      cases o <;>
        simp only [RespOp.step, List.filterMap_cons, List.filterMap_nil, statusOfR, versionOfR, peerOfR, localOfR, extOfR,
          msgOfR, List.append_nil, newest_snoc, h1, h3, h4, h5, h6, true_and]
      case setContentType mime => exact msgInv_contentType h7 mime
      case header o => exact msgInv_header h7 o
      case body o => exact msgInv_body h7 o
      case ext o => exact ⟨by unfold Extensions.run; rw [List.foldl_append]; rfl, h7⟩
      all_goals exact h7
  obtain ⟨h1, h3, h4, h5, h6, h7⟩ := key _ rfl
  refine ⟨h1, h3, h4, h5, fun k => ?_, h7.2⟩
  rw [h6, C15_get]

/-- A history in which every kind of call matters. -/
example :
    let I : BodyI (Option Mime) := ⟨id, none⟩
    let ops : List (ReqOp Str (Option Mime) (fun _ : Unit => Nat)) :=
      [.setMethod .put, .header (.insert s!!"Accept" (.str s!!"a")), .body (.set (some Mime.HTML)), .setPeer (some s!!"p"),
        .header (.append s!!"accept" (.str s!!"b")), .body (.set (some Mime.PLAIN)), .ext (.insert () 3), .setMethod .patch]
    newest Method.get (ops.filterMap methodOf) = .patch ∧
      (ops.filterMap (msgOf I)).foldl (headerStep I s!!"ACCEPT") none = some [s!!"a", s!!"b"] ∧
      (ops.filterMap (msgOf I)).foldl (headerStep I s!!"content-type") none = some [s!!"text/html;charset=utf-8"] ∧
      newest I.empty ((ops.filterMap (msgOf I)).filterMap bodyOf) = some Mime.PLAIN ∧
      slot () (ops.filterMap extOf) = some 3 := by
  decide +kernel

/-! ### Construction -/

/-- A constructor panics exactly if the URL does not convert. Otherwise the method is the one the constructor is named
after, the URL the given one, and everything else is empty. -/
theorem C76_constructors (I : BodyI β) (c : ReqVal.Ctor) (url : Option Url) :
    ((c.make I url : Res (ReqVal Url β T)) = .panic ↔ url = none) ∧
      ∀ u, url = some u → ∃ r : ReqVal Url β T, c.make I url = .ok r ∧ UpperOf (ctorName c) r.method.asStr ∧ r.url = u ∧
        r.version = none ∧ r.peerAddr = none ∧ r.localAddr = none ∧ (∀ k, r.ext.get k = none) ∧ r.msg.body = I.empty ∧
        ∀ n, Ascii n → r.msg.headers.getStr n = .ok none := by
  refine ⟨?_, ?_⟩
  · cases url <;> cases c <;> simp [ReqVal.Ctor.make, ReqVal.new]
  · intro u hu
    subst hu
    have : ∀ m : Method, UpperOf (ctorName c) m.asStr →
        c.make I (some u) = (ReqVal.new I m (some u) : Res (ReqVal Url β T)) →
        ∃ r : ReqVal Url β T, c.make I (some u) = .ok r ∧ UpperOf (ctorName c) r.method.asStr ∧ r.url = u ∧
        r.version = none ∧ r.peerAddr = none ∧ r.localAddr = none ∧ (∀ k, r.ext.get k = none) ∧ r.msg.body = I.empty ∧
        ∀ n, Ascii n → r.msg.headers.getStr n = .ok none := by
      intro m hm he
      exact ⟨_, he, hm, rfl, rfl, rfl, rfl, fun _ => rfl, rfl, fun n hn => (msgInv_new I).2.2 n hn⟩
    cases c with
    | get => exact this .get (by unfold UpperOf; decide) rfl
    | head => exact this .head (by unfold UpperOf; decide) rfl
    | post => exact this .post (by unfold UpperOf; decide) rfl
    | put => exact this .put (by unfold UpperOf; decide) rfl
    | delete => exact this .delete (by unfold UpperOf; decide) rfl
    | connect => exact this .connect (by unfold UpperOf; decide) rfl
    | options => exact this .options (by unfold UpperOf; decide) rfl
    | trace => exact this .trace (by unfold UpperOf; decide) rfl
    | patch => exact this .patch (by unfold UpperOf; decide) rfl

example : (ReqVal.Ctor.patch.make ⟨id, none⟩ (some s!!"u") : Res (ReqVal Str (Option Mime) (fun _ : Unit => Nat))).map
    (fun r => (r.method, r.url)) = .ok (.patch, s!!"u") := rfl

/-- A response is made exactly of a status that converts; from nothing it is 204, from a status code that code, and
from a body 200 with that body and its media type. -/
theorem C76_response_from (I : BodyI β) :
    (∀ s : StatusArg, (RespVal.new I s : Res (RespVal β T)) = .panic ↔ s.tryInto = none) ∧
      (∃ r : RespVal β T, RespVal.ofUnit I = .ok r ∧ r.status.toNat = 204 ∧ MsgIs I r.msg []) ∧
      (∀ c, ∃ r : RespVal β T, RespVal.ofStatus I c = .ok r ∧ r.status = c ∧ MsgIs I r.msg []) ∧
      ∀ b, ∃ r : RespVal β T, RespVal.ofBody I b = .ok r ∧ r.status.toNat = 200 ∧ MsgIs I r.msg [.body b] := by
  refine ⟨fun s => ?_, ⟨_, rfl, rfl, (msgInv_new I).2⟩, fun c => ⟨_, rfl, rfl, (msgInv_new I).2⟩, fun b =>
    ⟨_, rfl, rfl, (msgInv_body (msgInv_new I) (.set b)).2⟩⟩
  unfold RespVal.new
  cases s.tryInto <;> simp

example : (RespVal.new (T := fun _ : Unit => Nat) (⟨id, none⟩ : BodyI (Option Mime)) (.num 404)).map (fun r => r.status) = .ok .notFound := by
  decide

/-- A clone has the same method or status, URL, version, addresses and headers, an empty body and no extensions. The clone
of a request has no end of the trailer channel, the clone of a response the same ends of both channels; neither has
announced trailers or an upgrade. -/
theorem C76_clone (I : BodyI β) (r : ReqVal Url β T) (p : RespVal β T) :
    ((r.clone I).method = r.method ∧ (r.clone I).url = r.url ∧ (r.clone I).version = r.version ∧
        (r.clone I).peerAddr = r.peerAddr ∧ (r.clone I).localAddr = r.localAddr ∧
        (r.clone I).msg.headers = r.msg.headers ∧ (r.clone I).msg.body = I.empty ∧ (∀ k, (r.clone I).ext.get k = none) ∧
        (r.clone I).trailers.sender = false ∧ (r.clone I).trailers.receiver = false ∧ (r.clone I).trailers.flag = false) ∧
      (p.clone I).status = p.status ∧ (p.clone I).version = p.version ∧
        (p.clone I).peerAddr = p.peerAddr ∧ (p.clone I).localAddr = p.localAddr ∧
        (p.clone I).msg.headers = p.msg.headers ∧ (p.clone I).msg.body = I.empty ∧ (∀ k, (p.clone I).ext.get k = none) ∧
        (p.clone I).trailers.sender = p.trailers.sender ∧ (p.clone I).trailers.receiver = p.trailers.receiver ∧
        (p.clone I).trailers.flag = false ∧ (p.clone I).upgrade.sender = p.upgrade.sender ∧
        (p.clone I).upgrade.receiver = p.upgrade.receiver ∧ (p.clone I).upgrade.flag = false :=
  ⟨⟨rfl, rfl, rfl, rfl, rfl, rfl, rfl, fun _ => rfl, rfl, rfl, rfl⟩, rfl, rfl, rfl, rfl, rfl, rfl, fun _ => rfl, rfl, rfl,
    rfl, rfl, rfl, rfl⟩

example : ((⟨.put, s!!"u", ⟨[(s!!"a", [s!!"b"])], 7⟩, none, none, some s!!"p", Extensions.new, .fresh⟩ :
    ReqVal Str Nat (fun _ : Unit => Nat)).clone exampleI).msg = ⟨[(s!!"a", [s!!"b"])], 100⟩ := rfl

/-- The channels of C13 and C14 are those of the messages: a new message is their first state, no call about another part
touches the ends, and cloning a message is the `clone` step on each of its channels. -/
theorem C76_channels {V : Type} (I : BodyI β) (r r' : ReqVal Url β T) (p p' : RespVal β T) (m : Method) (u : Url)
    (s : StatusArg) :
    (ReqVal.new I m (some u) = .ok r → (Chan.init : Chan V).msgs = [some r.trailers]) ∧
      (RespVal.new I s = .ok p → (Chan.init : Chan V).msgs = [some p.trailers] ∧
        (Chan.init : Chan V).msgs = [some p.upgrade]) ∧
      (∀ ops : List (ReqOp Url β T), (ops.foldl (ReqOp.step I) r').trailers = r'.trailers) ∧
      (∀ ops : List (RespOp β T), (ops.foldl (RespOp.step I) p').trailers = p'.trailers ∧
        (ops.foldl (RespOp.step I) p').upgrade = p'.upgrade) ∧
      (∀ (c : Chan V) (i : Nat), c.msgs[i]? = some (some r'.trailers) →
        c.step .reqTrailers (.clone i) = some (.unit, { c with msgs := c.msgs ++ [some (r'.clone I).trailers] })) ∧
      (∀ (c : Chan V) (i : Nat), c.msgs[i]? = some (some p'.trailers) →
        c.step .respTrailers (.clone i) = some (.unit, { c with msgs := c.msgs ++ [some (p'.clone I).trailers] })) ∧
      (∀ (c : Chan V) (i : Nat), c.msgs[i]? = some (some p'.upgrade) →
        c.step .respUpgrade (.clone i) = some (.unit, { c with msgs := c.msgs ++ [some (p'.clone I).upgrade] })) := by
  refine ⟨?_, ?_, ?_, ?_, ?_, ?_, ?_⟩
  · intro h; cases h; rfl
  · intro h
    unfold RespVal.new at h
    split at h
    · cases h; exact ⟨rfl, rfl⟩
    · cases h
  · intro ops
    induction ops generalizing r' with
    | nil => rfl
    | cons o ops ih => rw [List.foldl_cons, ih]; cases o <;> rfl
  · intro ops
    induction ops generalizing p' with
    | nil => exact ⟨rfl, rfl⟩
    | cons o ops ih => rw [List.foldl_cons, (ih _).1, (ih _).2]; cases o <;> exact ⟨rfl, rfl⟩
  all_goals
    intro c i h
    simp [Chan.step, Chan.clone, h, ReqVal.clone, RespVal.clone]

example : (Chan.init : Chan Nat).msgs[0]? = some (some (⟨.get, s!!"u", ⟨[], 7⟩, none, none, none, Extensions.new, .fresh⟩ :
    ReqVal Str Nat (fun _ : Unit => Nat)).trailers) := rfl

/-! ### Queries -/

/-- Reading the query decodes the query of the URL, the empty text if there is none; a query that does not decode is
reported as a client error. Setting it changes only the URL, and nothing if the value does not encode, which is a client
error too. -/
theorem C76_query {α : Type} (Q : UrlQuery Url) (decode : Str → Option α) (r : ReqVal Url β T) :
    (∀ a, r.query Q decode = .ok a ↔ decode ((Q.query r.url).getD []) = some a) ∧
      (r.query Q decode = .err 400 ↔ decode ((Q.query r.url).getD []) = none) ∧ r.query Q decode ≠ .panic ∧
      r.setQuery Q none = (.err 400, r) ∧
      ∀ q, r.setQuery Q (some q) = (.ok (), { r with url := Q.setQuery r.url (some q) }) := by
  unfold ReqVal.query
  cases decode ((Q.query r.url).getD []) <;> simp [ReqVal.setQuery]

example : (⟨.get, some s!!"a=1", ⟨[], 7⟩, none, none, none, Extensions.new, .fresh⟩ :
    ReqVal (Option Str) Nat (fun _ : Unit => Nat)).query ⟨id, fun _ q => q⟩ (fun q => if q = s!!"a=1" then some 1 else none) = .ok 1 := by
  decide

/-- What was set is read back, for a URL that keeps its query and a codec that decodes what it encodes. -/
theorem C76_query_round_trip {α : Type} (Q : UrlQuery Url) (encode : α → Option Str) (decode : Str → Option α)
    (hq : ∀ u q, Q.query (Q.setQuery u (some q)) = some q) (hd : ∀ a q, encode a = some q → decode q = some a)
    (r : ReqVal Url β T) (a : α) (q : Str) (ha : encode a = some q) :
    (r.setQuery Q (encode a)).2.query Q decode = .ok a := by
  rw [ha]
  simp [ReqVal.setQuery, ReqVal.query, hq, hd a q ha]

/-- A URL that is only a query, and a codec. -/
example : let Q : UrlQuery (Option Str) := ⟨id, fun _ q => q⟩
    (∀ u q, Q.query (Q.setQuery u (some q)) = some q) ∧ ∀ a q : Str, (some a : Option Str) = some q → some q = some a := by
  refine ⟨fun _ _ => rfl, fun a q h => h.symm⟩

/-! ### Reading the body -/

/-- Reading converts exactly the body the message has and leaves the empty body. The content type stays if there is
one; all other headers and all other parts of the message stay. -/
theorem C77_read_partial {α : Type} (I : BodyI β) (into : β → α) (r : ReqVal Url β T) (p : RespVal β T) :
    ((r.bodyInto I into).1 = into r.msg.body ∧ (r.bodyInto I into).2.msg.body = I.empty ∧
        (∀ n, n ≠ s!!"content-type" → (r.bodyInto I into).2.msg.headers.get n = r.msg.headers.get n) ∧
        (r.bodyInto I into).2.msg.headers.get s!!"content-type" =
          (r.msg.headers.get s!!"content-type").or ((I.mime I.empty).map fun m => [m.display]) ∧
        { (r.bodyInto I into).2 with msg := r.msg } = r) ∧
      (p.bodyInto I into).1 = into p.msg.body ∧ (p.bodyInto I into).2.msg.body = I.empty ∧
        (∀ n, n ≠ s!!"content-type" → (p.bodyInto I into).2.msg.headers.get n = p.msg.headers.get n) ∧
        (p.bodyInto I into).2.msg.headers.get s!!"content-type" =
          (p.msg.headers.get s!!"content-type").or ((I.mime I.empty).map fun m => [m.display]) ∧
        { (p.bodyInto I into).2 with msg := p.msg } = p := by
  have key : ∀ m : Msg β, (∀ n, n ≠ s!!"content-type" → (m.takeBody I).2.headers.get n = m.headers.get n) ∧
        (m.takeBody I).2.headers.get s!!"content-type" =
          (m.headers.get s!!"content-type").or ((I.mime I.empty).map fun m => [m.display]) := by
    intro m
    cases hg : m.headers.get s!!"content-type" with
    | none => exact C12_absent I m .take hg
    | some vs =>
      have := C12_present I m .take (by rw [show CONTENT_TYPE = s!!"content-type" from rfl, hg]; simp)
      change (m.takeBody I).2.headers = m.headers at this
      rw [this]
      exact ⟨fun _ _ => rfl, hg⟩
  exact ⟨⟨rfl, C12_new_body I r.msg .take, (key r.msg).1, (key r.msg).2, rfl⟩, rfl, C12_new_body I p.msg .take,
    (key p.msg).1, (key p.msg).2, rfl⟩

example : ((⟨.put, s!!"u", ⟨[(s!!"a", [s!!"b"])], 7⟩, none, none, none, Extensions.new, .fresh⟩ :
    ReqVal Str Nat (fun _ : Unit => Nat)).bodyInto exampleI (· + 1)).1 = 8 := rfl

/-- Turning a request into a body gives the body a read would have taken, with nothing of it read. -/
theorem C77_request_as_body (I : BodyI β) (r : ReqVal Url β T) : r.toBody = (r.bodyInto I id).1 := rfl

example : (⟨.get, s!!"u", ⟨[], 7⟩, none, none, none, Extensions.new, .fresh⟩ : ReqVal Str Nat (fun _ : Unit => Nat)).toBody = 7 := rfl

/-- A second read finds the empty body: no bytes, the empty text, whatever was read first and whatever the readers do. -/
theorem C77_second_read {σ : Type} (R : ReaderI σ) (e : σ) {α : Type} (into : Body σ → α) (r : ReqVal Url (Body σ) T)
    (ns : List Nat) (h : ns ≠ []) :
    ((r.bodyInto (Body.iface e) into).2.bodyInto (Body.iface e) fun b => b.intoBytes R ns).1 = some (.ok []) ∧
      ((r.bodyInto (Body.iface e) into).2.bodyInto (Body.iface e) fun b => b.intoString R ns).1 = some (.ok []) := by
  rw [(C77_read_partial (T := T) (Body.iface e) _ (r.bodyInto (Body.iface e) into).2
      ⟨.ok, Msg.new (Body.iface e), none, .fresh, .fresh, Extensions.new, none, none⟩).1.1,
    (C77_read_partial (T := T) (Body.iface e) _ (r.bodyInto (Body.iface e) into).2
      ⟨.ok, Msg.new (Body.iface e), none, .fresh, .fresh, Extensions.new, none, none⟩).1.1]
  rw [(C77_read_partial (T := T) (Body.iface e) into r
      ⟨.ok, Msg.new (Body.iface e), none, .fresh, .fresh, Extensions.new, none, none⟩).1.2.1]
  cases ns with
  | nil => exact absurd rfl h
  | cons n ns => exact ⟨rfl, rfl⟩

example : (((⟨.put, s!!"u", ⟨[], Body.fromBytes [1, 2]⟩, none, none, none, Extensions.new, .fresh⟩ :
    ReqVal Str (Body (List Byte)) (fun _ : Unit => Nat)).bodyInto (Body.iface []) fun b => b.intoBytes cursorI [4, 4]).2.bodyInto
      (Body.iface []) fun b => b.intoBytes cursorI [4, 4]).1 = some (.ok []) := by decide +kernel

/-- A text put into a request is read back, with the media type of text when no other was chosen. -/
theorem C77_text (r : ReqVal Url (Body (List Byte)) T) (s : Str) (ns : List Nat) (hns : ∀ n ∈ ns, n ≠ 0)
    (hl : (utf8Encode s).length < ns.length) (hm : (utf8Encode s).length < 2 ^ 63) :
    let q := ReqOp.step (Body.iface []) r (.body (.set (Body.fromString s)))
    (q.bodyInto (Body.iface []) fun b => b.intoString cursorI ns).1 = some (.ok s) ∧
      q.msg.headers.get s!!"content-type" = (r.msg.headers.get s!!"content-type").or (some [s!!"text/plain;charset=utf-8"]) := by
  refine ⟨?_, ?_⟩
  · have : (ReqOp.step (Body.iface []) r (.body (.set (Body.fromString s)))).msg.body = Body.fromString s :=
      C12_new_body _ _ (.set (Body.fromString s))
    show Body.intoString cursorI (ReqOp.step (Body.iface []) r (.body (.set (Body.fromString s)))).msg.body ns = _
    rw [this]
    exact C11_string_round_trip s ns hns hl hm
  · cases hg : r.msg.headers.get s!!"content-type" with
    | none =>
      have := (C12_absent (Body.iface []) r.msg (.set (Body.fromString s)) hg).2
      refine this.trans ?_
      rfl
    | some vs =>
      have := C12_present (Body.iface []) r.msg (.set (Body.fromString s))
        (by rw [show CONTENT_TYPE = s!!"content-type" from rfl, hg]; simp)
      exact (congrArg (fun h => Headers.get h s!!"content-type") this).trans hg

example : ((ReqOp.step (Body.iface []) (⟨.put, s!!"u", ⟨[], Body.fromBytes [1, 2]⟩, none, none, none, Extensions.new, .fresh⟩ :
    ReqVal Str (Body (List Byte)) (fun _ : Unit => Nat)) (.body (.set (Body.fromString s!!"é")))).bodyInto (Body.iface [])
      fun b => b.intoString cursorI [4, 4, 4]).1 = some (.ok s!!"é") := by decide +kernel

/-- Reading the body is not without a trace: a message without content type has one afterwards. -/
theorem C77_violated_header {σ : Type} (e : σ) {α : Type} (into : Body σ → α) (r : ReqVal Url (Body σ) T)
    (h : r.msg.headers.get s!!"content-type" = none) :
    (r.bodyInto (Body.iface e) into).2.msg.headers.get s!!"content-type" = some [s!!"application/octet-stream"] := by
  rw [(C77_read_partial (T := T) (Body.iface e) into r
      ⟨.ok, Msg.new (Body.iface e), none, .fresh, .fresh, Extensions.new, none, none⟩).1.2.2.2.1, h]
  rfl

example : Headers.get (Headers.new) s!!"content-type" = none ∧ (utf8Encode s!!"héllo").length < [8, 8, 8, 8, 8, 8, 8].length := by
  decide

end HT
