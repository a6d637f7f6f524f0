import Verif.Spec.Hyperium
import Verif.Lemmas.Headers
import Verif.Lemmas.Mime
import Verif.Props.Message
import Verif.Props.Tables

/-! Conversions to and from the crate `http`: C60, C67, C68. -/

namespace HT
open Spec

/-! ### C67: methods, versions and statuses -/

/-- Versions convert both ways without loss. -/
theorem C67_version :
    (∀ v, Hyper.toVersion (Hyper.ofVersion v) = v) ∧ (∀ v, Hyper.ofVersion (Hyper.toVersion v) = v) ∧
      (∀ v, Hyper.ofVersion v = match v with
        | .http0_9 => .http09 | .http1_0 => .http10 | .http1_1 => .http11 | .http2_0 => .http2
        | .http3_0 => .http3) := by
  refine ⟨fun v => by cases v <;> rfl, fun v => by cases v <;> rfl, fun v => by cases v <;> rfl⟩

example : Hyper.ofVersion .http2_0 = .http2 := rfl

/-- Every method converts to the method with the same name and back. -/
theorem C67_method (m : Method) :
    Hyper.ofMethod m = .ok m.asStr ∧ Hyper.toMethod m.asStr = .ok m := by
  cases m <;> decide +kernel

example : Hyper.ofMethod .versionControl = .ok s!!"VERSION-CONTROL" := by decide +kernel

/-- A method of the crate is converted to the method of that name, upper and lower case not told apart; any
other method panics. -/
theorem C67_method_from (s : Str) :
    (∀ m, Hyper.toMethod s = .ok m ↔ sameName s m.asStr = true) ∧
      (Hyper.toMethod s = .panic ↔ ∀ m : Method, sameName s m.asStr = false) := by
  have key : ∀ m, Hyper.toMethod s = .ok m ↔ sameName s m.asStr = true := by
    intro m
    rw [← (C17_parse_iff s m).1]
    unfold Hyper.toMethod
    cases Method.fromStr s <;> simp
  refine ⟨key, ?_⟩
  constructor
  · intro h m
    cases hm : sameName s m.asStr with
    | false => rfl
    | true =>
      have h' := (key m).mpr hm
      rw [h] at h'
      cases h'
  · intro h
    unfold Hyper.toMethod
    rw [(C17_parse_iff s .get).2 h]

example : Hyper.toMethod s!!"pAtch" = .ok .patch ∧ Hyper.toMethod s!!"BREW" = .panic := by decide +kernel

/-- The crate's extension methods, which are all other tokens, panic. -/
theorem C67_violated_method :
    (∀ s, Token s → (∀ m : Method, sameName s m.asStr = false) →
      Hyper.methodOfStr s = some s ∧ Hyper.toMethod s = .panic) ∧
    Token s!!"PURGE" ∧ ∀ m : Method, sameName s!!"PURGE" m.asStr = false := by
  refine ⟨fun s hs hm => ⟨?_, (C67_method_from s).2.mpr hm⟩, ?_, fun m => by cases m <;> decide⟩
  · unfold Hyper.methodOfStr
    rw [if_pos ⟨hs.1, List.all_eq_true.mpr fun c hc => (Mime.isToken_iff c).mpr (hs.2 c hc)⟩]
  · unfold Token TChar; decide

/-- Every status converts to the same number and back. -/
theorem C67_status (c : StatusCode) :
    Hyper.ofStatus c = .ok c.toNat ∧ Hyper.toStatus c.toNat = .ok c := by
  have h : ∀ c ∈ StatusCode.all, Hyper.ofStatus c = .ok c.toNat ∧ Hyper.toStatus c.toNat = .ok c := by
    decide +kernel
  exact h c c.mem_all

example : Hyper.ofStatus .imATeapot = .ok 418 := by decide +kernel

/-- A number of the crate converts to the status with that number; a number without a status panics. -/
theorem C67_status_from (n : Nat) :
    (∀ c, Hyper.toStatus n = .ok c ↔ c.toNat = n) ∧
      (Hyper.toStatus n = .panic ↔ statusNumber n = false) := by
  obtain ⟨h1, h2, -⟩ := C18_convert n
  constructor
  · intro c
    rw [← h2 c]
    unfold Hyper.toStatus
    cases StatusCode.tryFrom n <;> simp
  · unfold Hyper.toStatus
    cases ht : StatusCode.tryFrom n with
    | none =>
      simp only [Res.unwrap_none, true_iff]
      rw [ht] at h1
      cases hs : statusNumber n with
      | false => rfl
      | true => obtain ⟨c, hc⟩ := h1.mp hs; cases hc
    | some c =>
      rw [h1.mpr ⟨c, ht⟩]
      simp

example : Hyper.toStatus 404 = .ok .notFound ∧ Hyper.toStatus 299 = .panic := by decide +kernel

/-- Numbers the crate has and this library has not, such as 102 or 299, panic. -/
theorem C67_violated_status :
    (∀ n, 100 ≤ n → n ≤ 999 → statusNumber n = false → Hyper.statusOfU16 n = some n ∧ Hyper.toStatus n = .panic) ∧
      statusNumber 102 = false ∧ statusNumber 299 = false := by
  refine ⟨fun n h1 h2 h3 => ⟨?_, (C67_status_from n).2.mpr h3⟩, by decide +kernel, by decide +kernel⟩
  unfold Hyper.statusOfU16
  rw [if_pos ⟨h1, by omega⟩]

example : Hyper.toMethod s!!"get" = .ok .get := by decide +kernel

/-! ### C60: header collections -/

namespace FMap
variable {κ ν : Type} [DecidableEq κ]

theorem set_fresh {m : FMap κ ν} {k : κ} (h : k ∉ keys m) (v : ν) : set m k v = m ++ [(k, v)] := by
  induction m with
  | nil => rfl
  | cons e m ih =>
    obtain ⟨a, b⟩ := e
    simp only [keys, List.map_cons, List.mem_cons, not_or] at h
    rw [set, if_neg (fun e => h.1 e.symm), ih h.2]
    rfl

theorem set_last {m : FMap κ ν} {k : κ} (h : k ∉ keys m) (u v : ν) :
    set (m ++ [(k, u)]) k v = m ++ [(k, v)] := by
  induction m with
  | nil => simp [set]
  | cons e m ih =>
    obtain ⟨a, b⟩ := e
    simp only [keys, List.map_cons, List.mem_cons, not_or] at h
    rw [List.cons_append, set, if_neg (fun e => h.1 e.symm), ih h.2]
    rfl

theorem get_last {m : FMap κ ν} {k : κ} (h : k ∉ keys m) (u : ν) : get (m ++ [(k, u)]) k = some u := by
  induction m with
  | nil => simp [get]
  | cons e m ih =>
    obtain ⟨a, b⟩ := e
    simp only [keys, List.map_cons, List.mem_cons, not_or] at h
    rw [List.cons_append, get, if_neg (fun e => h.1 e.symm), ih h.2]

end FMap

namespace Hyper

theorem valueOf_eq (v : Str) : (HttpText v → valueOf v = some (utf8Encode v)) ∧ (¬ HttpText v → valueOf v = none) := by
  have key : (utf8Encode v).all (fun b => (32 ≤ b.val && b.val != 127) || b.val == 9) = true ↔ HttpText v := by
    unfold HttpText
    induction v with
    | nil => simp [utf8Encode]
    | cons c s ih =>
      have : utf8Encode (c :: s) = utf8EncodeC c ++ utf8Encode s := rfl
      rw [this, List.all_append, Bool.and_eq_true, ih, List.forall_mem_cons]
      refine and_congr_left' ?_
      have hc := char_range c
      have htab : c = '\t' ↔ c.toNat = 9 :=
        ⟨fun h => by rw [h]; rfl, fun h => Char.toNat_inj.mp (h.trans (by rfl : 9 = '\t'.toNat))⟩
      rw [htab]
      unfold utf8EncodeC
      dsimp only
      split
      · simp only [List.all_cons, List.all_nil, byte_val (n := c.toNat) (by omega)]
        simp
        omega
      split
      · simp only [List.all_cons, List.all_nil, byte_val (n := 192 + c.toNat / 64) (by omega),
          byte_val (n := 128 + c.toNat % 64) (by omega)]
        simp
        omega
      split
      · simp only [List.all_cons, List.all_nil, byte_val (n := 224 + c.toNat / 4096) (by omega),
          byte_val (n := 128 + c.toNat / 64 % 64) (by omega), byte_val (n := 128 + c.toNat % 64) (by omega)]
        simp
        omega
      · simp only [List.all_cons, List.all_nil, byte_val (n := 240 + c.toNat / 262144) (by omega),
          byte_val (n := 128 + c.toNat / 4096 % 64) (by omega),
          byte_val (n := 128 + c.toNat / 64 % 64) (by omega), byte_val (n := 128 + c.toNat % 64) (by omega)]
        simp
        omega
  constructor
  · intro h; unfold valueOf; rw [if_pos (key.mpr h)]
  · intro h; unfold valueOf; rw [if_neg (fun e => h (key.mp e))]

section
variable {convN : Str → Res Str} {conv : HeaderValue → Res (List Byte)}

theorem ofValues_last {n : Str} {m : HMap} (hn : n ∉ FMap.keys m) (pre : List (List Byte)) (vs : List HeaderValue)
    (hv : ∀ v ∈ vs, conv v = .ok (utf8Encode v)) :
    ofValues conv n vs (m ++ [(n, pre)]) = .ok (m ++ [(n, pre ++ vs.map utf8Encode)]) := by
  induction vs generalizing pre with
  | nil => simp [ofValues]
  | cons v vs ih =>
    rw [ofValues, hv v (by simp), Res.bind_ok]
    unfold append
    rw [FMap.get_last hn, FMap.set_last hn, Option.getD_some, ih _ (fun w hw => hv w (by simp [hw]))]
    simp

theorem ofValues_fresh {n : Str} {m : HMap} (hn : n ∉ FMap.keys m) (vs : List HeaderValue) (hne : vs ≠ [])
    (hv : ∀ v ∈ vs, conv v = .ok (utf8Encode v)) :
    ofValues conv n vs m = .ok (m ++ [(n, vs.map utf8Encode)]) := by
  cases vs with
  | nil => exact absurd rfl hne
  | cons v vs =>
    rw [ofValues, hv v (by simp), Res.bind_ok]
    unfold append
    rw [(FMap.get_eq_none_iff m n).mpr hn, FMap.set_fresh hn, Option.getD_none,
      ofValues_last hn _ _ (fun w hw => hv w (by simp [hw]))]
    simp

theorem ofLoop_ok (h : Headers) (m : HMap) (hd : (FMap.keys m ++ h.map Prod.fst).Nodup)
    (hne : ∀ e ∈ h, e.2 ≠ []) (hN : ∀ e ∈ h, convN e.1 = .ok e.1)
    (hv : ∀ e ∈ h, ∀ v ∈ e.2, conv v = .ok (utf8Encode v)) :
    ofLoop convN conv h m = .ok (m ++ asBytes h) := by
  induction h generalizing m with
  | nil => simp [ofLoop, asBytes]
  | cons e h ih =>
    obtain ⟨n, vs⟩ := e
    have hn : n ∉ FMap.keys m := by
      intro hm
      rw [List.nodup_append] at hd
      exact hd.2.2 n hm n (by simp) rfl
    rw [ofLoop, hN (n, vs) (by simp), Res.bind_ok,
      ofValues_fresh hn vs (hne (n, vs) (by simp)) (hv (n, vs) (by simp)), Res.bind_ok, ih]
    · simp [asBytes]
    · simpa [FMap.keys] using hd
    · exact fun e he => hne e (by simp [he])
    · exact fun e he => hN e (by simp [he])
    · exact fun e he => hv e (by simp [he])

/-- The loops stop with the failure of the conversion. -/
theorem ofLoop_fail {fail : {α : Type} → Res α}
    (hf : ∀ {α β : Type} (f : α → Res β), (fail : Res α).bind f = fail)
    (h : Headers) (m : HMap)
    (hN : ∀ e ∈ h, convN e.1 = .ok e.1 ∨ convN e.1 = fail)
    (hv : ∀ e ∈ h, ∀ v ∈ e.2, conv v = .ok (utf8Encode v) ∨ conv v = fail)
    (hbad : ∃ e ∈ h, convN e.1 = fail ∨ ∃ v ∈ e.2, conv v = fail) :
    ofLoop convN conv h m = fail := by
  have hvals : ∀ (n : Str) (vs : List HeaderValue) (m : HMap),
      (∀ v ∈ vs, conv v = .ok (utf8Encode v) ∨ conv v = fail) →
      ((∃ v ∈ vs, conv v = fail) → ofValues conv n vs m = fail) ∧
        (ofValues conv n vs m = fail ∨ ∃ m', ofValues conv n vs m = .ok m') := by
    intro n vs
    induction vs with
    | nil => exact fun m _ => ⟨by simp, .inr ⟨m, rfl⟩⟩
    | cons v vs ih =>
      intro m hvs
      rw [ofValues]
      rcases hvs v (by simp) with h1 | h1
      · obtain ⟨i1, i2⟩ := ih (append m n (utf8Encode v)) (fun w hw => hvs w (by simp [hw]))
        rw [h1, Res.bind_ok]
        refine ⟨?_, i2⟩
        rintro ⟨w, hw, hw'⟩
        rcases List.mem_cons.mp hw with rfl | hw
        · have hb := hf (fun x => ofValues conv n vs (append m n x))
          rw [hw'] at h1
          rw [h1, Res.bind_ok] at hb
          exact hb
        · exact i1 ⟨w, hw, hw'⟩
      · rw [h1, hf]
        exact ⟨fun _ => rfl, .inl rfl⟩
  induction h generalizing m with
  | nil => obtain ⟨e, he, _⟩ := hbad; simp at he
  | cons e h ih =>
    obtain ⟨n, vs⟩ := e
    rw [ofLoop]
    rcases hN (n, vs) (by simp) with h1 | h1
    · by_cases h1' : convN n = fail
      · rw [h1', hf]
      rw [h1, Res.bind_ok]
      obtain ⟨i1, i2⟩ := hvals n vs m (hv (n, vs) (by simp))
      rcases i2 with h2 | ⟨m', h2⟩
      · rw [h2, hf]
      · by_cases h3 : ofValues conv n vs m = fail
        · rw [h3, hf]
        rw [h2, Res.bind_ok]
        apply ih
        · exact fun e he => hN e (by simp [he])
        · exact fun e he => hv e (by simp [he])
        · obtain ⟨e, he, hb⟩ := hbad
          rcases List.mem_cons.mp he with rfl | he
          · rcases hb with hb | hb
            · exact absurd hb h1'
            · exact absurd (i1 hb) h3
          · exact ⟨e, he, hb⟩
    · rw [show convN n = fail from h1, hf]

end

theorem nameOf_lower (ok : Str → Bool) {n : Str} (hn : NoUpper n) : nameOf ok n = if ok n then some n else none := by
  unfold nameOf
  rw [Mime.lower_of_noUpper hn]

end Hyper

/-- Converting a collection: succeeds with the same names, values and order of values exactly when the crate
takes every name and value, and fails with status 500 otherwise. -/
theorem C60_to_http (ok : Str → Bool) (h : Headers) (hw : LowerMap h) :
    (Accepted ok h → Hyper.ofHeaders ok h = .ok (asBytes h)) ∧
      (¬ Accepted ok h → Hyper.ofHeaders ok h = .err 500) := by
  obtain ⟨hd, hw⟩ := hw
  constructor
  · intro ha
    have := Hyper.ofLoop_ok (convN := fun n => Res.ofOption 500 (Hyper.nameOf ok n))
      (conv := fun v => Res.ofOption 500 (Hyper.valueOf v)) h [] (by simpa [FMap.keys] using hd)
      (fun e he => (hw e he).2)
      (fun e he => by simp only [Hyper.nameOf_lower ok (hw e he).1, (ha e he).1, if_true, Res.ofOption_some])
      (fun e he v hv => by simp only [(Hyper.valueOf_eq v).1 ((ha e he).2 v hv), Res.ofOption_some])
    exact this.trans (by rfl)
  · intro ha
    refine Hyper.ofLoop_fail (fail := fun {α} => (.err 500 : Res α)) (fun f => rfl) h [] ?_ ?_ ?_
    · intro e he
      rw [Hyper.nameOf_lower ok (hw e he).1]
      cases ok e.1
      · exact .inr rfl
      · exact .inl rfl
    · intro e he v hv
      by_cases ht : HttpText v
      · rw [(Hyper.valueOf_eq v).1 ht]; exact .inl rfl
      · rw [(Hyper.valueOf_eq v).2 ht]; exact .inr rfl
    · by_contra hno
      apply ha
      intro e he
      constructor
      · by_contra ho
        refine hno ⟨e, he, .inl ?_⟩
        rw [Hyper.nameOf_lower ok (hw e he).1, if_neg ho]
        rfl
      · intro v hv
        by_contra ht
        refine hno ⟨e, he, .inr ⟨v, hv, ?_⟩⟩
        rw [(Hyper.valueOf_eq v).2 ht]
        rfl

/-- Accepted by the examples: non-empty token text. -/
def tokenName (n : Str) : Bool := !n.isEmpty && n.all Mime.isToken

example : Hyper.ofHeaders tokenName [(s!!"accept", [s!!"a", s!!"b"])] =
    .ok [(s!!"accept", [[97], [98]])] := by decide +kernel

namespace Hyper

theorem toHeadersLoop_skip (vs : List (List Byte)) (rest : List (Option Str × List Byte)) (h : Headers) :
    toHeadersLoop (vs.map (fun v => (none, v)) ++ rest) h = toHeadersLoop rest h := by
  induction vs with
  | nil => rfl
  | cons v vs ih => rw [List.map_cons, List.cons_append, toHeadersLoop, ih]

theorem intoIter_cons (n : Str) (v : List Byte) (vs : List (List Byte)) (m : HMap) :
    intoIter ((n, v :: vs) :: m) = (some n, v) :: (vs.map (fun v => (none, v)) ++ intoIter m) := rfl

theorem toName_ok {n : Str} (ha : Ascii n) (hn : NoUpper n) : toName n = .ok n := by
  show HeaderName.fromString n = _
  rw [HeaderName.fromString_eq, HeaderName.fromStr_ok_iff, Mime.lower_of_noUpper hn]
  exact ⟨(spec_ascii_iff _).mp ha, rfl⟩

theorem asciiBytes_all (v : List Byte) : AsciiBytes v ↔ v.all (fun b => decide (b.val < 128)) = true := by
  simp [AsciiBytes]

theorem toValue_text {v : List Byte} {s : Str} (h : IsText v s) :
    toValue v = if isAscii s then .ok s else .err 500 := by
  unfold IsText at h
  subst h
  unfold toValue HeaderValue.fromBytes
  rw [all_utf8Encode]
  by_cases h : isAscii s = true
  · rw [if_pos h, if_pos h, utf8Encode_ascii h, List.map_map]
    congr 1
    conv_rhs => rw [← List.map_id s]
    apply List.map_congr_left
    intro c hc
    have := List.all_eq_true.mp h c hc
    simp only [isAsciiC, decide_eq_true_eq] at this
    simp only [Function.comp, id]
    rw [byte_val (by omega), ofNat_toNat]
  · rw [if_neg h, if_neg h]

theorem toValue_eq (v : List Byte) :
    (∃ s, toValue v = .ok s ∧ IsText v s ∧ Ascii s) ∨ (toValue v = .err 500 ∧ ¬ AsciiBytes v) := by
  by_cases h : AsciiBytes v
  · left
    have h' := (asciiBytes_all v).mp h
    have hs : isAscii (v.map fun b => Char.ofNat b.val) = true := by
      unfold isAscii
      rw [List.all_map, List.all_eq_true]
      intro b hb
      have := h b hb
      simp only [Function.comp, isAsciiC, decide_eq_true_eq]
      rw [toNat_ofNat_valid (by omega)]
      omega
    have ht : IsText v (v.map fun b => Char.ofNat b.val) := by
      unfold IsText
      rw [utf8Encode_ascii hs, List.map_map]
      conv_rhs => rw [← List.map_id v]
      apply List.map_congr_left
      intro b hb
      have := h b hb
      simp only [Function.comp, id]
      rw [toNat_ofNat_valid (by omega), byte_val_self]
    exact ⟨_, (toValue_text ht).trans (if_pos hs), ht, (spec_ascii_iff _).mpr hs⟩
  · right
    refine ⟨?_, h⟩
    unfold toValue HeaderValue.fromBytes
    rw [if_neg (fun e => h ((asciiBytes_all v).mpr e))]

theorem isText_unique {v : List Byte} {s t : Str} (h1 : IsText v s) (h2 : IsText v t) : s = t :=
  utf8Encode_injective (h1.trans h2.symm)

theorem toHeadersLoop_eq (m : HMap) (h : Headers) (hm : ∀ e ∈ m, Ascii e.1 ∧ NoUpper e.1 ∧ e.2 ≠ [])
    (hd : (FMap.keys h ++ m.map Prod.fst).Nodup) :
    (∃ h', toHeadersLoop (intoIter m) h = .ok (h ++ h') ∧ FirstValues m h' ∧ ∀ e ∈ h', ∀ v ∈ e.2, Ascii v) ∨
      (toHeadersLoop (intoIter m) h = .err 500 ∧ ∃ e ∈ m, ∃ v, e.2.head? = some v ∧ ¬ AsciiBytes v) := by
  induction m generalizing h with
  | nil => exact .inl ⟨[], by simp [toHeadersLoop, intoIter], .nil, by simp⟩
  | cons e m ih =>
    obtain ⟨n, vs⟩ := e
    obtain ⟨ha, hu, hne⟩ := hm (n, vs) (by simp)
    cases vs with
    | nil => exact absurd rfl hne
    | cons v vs =>
      rw [intoIter_cons, toHeadersLoop]
      rcases toValue_eq v with ⟨s, h1, h2, h3⟩ | ⟨h1, h2⟩
      · have hn : n ∉ FMap.keys h := by
          intro hk
          rw [List.nodup_append] at hd
          exact hd.2.2 n hk n (by simp) rfl
        have happ : Headers.append h n (.value s) = (h ++ [(n, [s])], .ok ()) := by
          unfold Headers.append
          rw [(FMap.get_eq_none_iff h n).mpr hn]
          show (FMap.set h n [s], _) = _
          rw [FMap.set_fresh hn]
          rfl
        rw [h1, Res.bind_ok, toName_ok ha hu, Res.bind_ok, happ]
        show (∃ h', toHeadersLoop (vs.map (fun v => (none, v)) ++ intoIter m) (h ++ [(n, [s])]) = _ ∧ _) ∨
          (toHeadersLoop (vs.map (fun v => (none, v)) ++ intoIter m) (h ++ [(n, [s])]) = _ ∧ _)
        rw [toHeadersLoop_skip]
        rcases ih (h ++ [(n, [s])]) (fun e he => hm e (by simp [he])) (by simpa [FMap.keys] using hd) with
          ⟨h', e1, e2, e3⟩ | ⟨e1, e, he, e2⟩
        · refine .inl ⟨(n, [s]) :: h', ?_, .cons ⟨rfl, v, s, rfl, h2, rfl⟩ e2, ?_⟩
          · rw [e1]; simp
          · intro e he
            rcases List.mem_cons.mp he with rfl | he
            · intro w hw
              rw [List.mem_singleton.mp hw]
              exact h3
            · exact e3 e he
        · exact .inr ⟨e1, e, by simp [he], e2⟩
      · exact .inr ⟨by rw [h1]; rfl, (n, v :: vs), by simp, v, rfl, h2⟩

theorem firstValues_unique {m : HMap} {h h' : Headers} (h1 : FirstValues m h) (h2 : FirstValues m h') : h = h' := by
  unfold FirstValues at h1 h2
  induction h1 generalizing h' with
  | nil => cases h2; rfl
  | @cons a b l l' hab _ ih =>
    cases h2 with
    | @cons _ b' _ l'' hab' htl =>
      obtain ⟨n1, v, s, e1, e2, e3⟩ := hab
      obtain ⟨n2, v', s', f1, f2, f3⟩ := hab'
      rw [e1] at f1
      cases f1
      rw [ih htl, Prod.ext (n1.trans n2.symm) (e3.trans ((congrArg (fun x => [x]) (isText_unique e2 f2)).trans f3.symm))]

end Hyper

/-- Converting a header map of the crate: the result has the same names, each with its first value; a first
value that is not ASCII is refused with status 500. -/
theorem C60_from_http (m : HMap) (hm : HttpMap m) :
    (∀ h, Hyper.toHeaders m = .ok h ↔ FirstValues m h ∧ ∀ e ∈ h, ∀ v ∈ e.2, Ascii v) ∧
      (Hyper.toHeaders m = .err 500 ↔ ∃ e ∈ m, ∃ v, e.2.head? = some v ∧ ¬ AsciiBytes v) := by
  have key := Hyper.toHeadersLoop_eq m Headers.new hm.2 (by simpa [FMap.keys, Headers.new] using hm.1)
  have hgood : ∀ h, FirstValues m h → (∀ e ∈ h, ∀ v ∈ e.2, Ascii v) →
      ¬ ∃ e ∈ m, ∃ v, e.2.head? = some v ∧ ¬ AsciiBytes v := by
    rintro h hf ha ⟨e, he, v, hv, hb⟩
    obtain ⟨e', he', -, v', s, h1, h2, h3⟩ := forall₂_left hf e he
    rw [hv] at h1
    cases h1
    apply hb
    rw [Hyper.asciiBytes_all, ← (show utf8Encode s = v from h2), all_utf8Encode]
    exact (spec_ascii_iff _).mp (ha e' he' s (by rw [h3]; simp))
  rcases key with ⟨h', e1, e2, e3⟩ | ⟨e1, e2⟩
  · have e1 : Hyper.toHeaders m = .ok h' := e1
    refine ⟨fun h => ⟨fun hh => ?_, fun hh => ?_⟩, ⟨fun hh => ?_, fun hh => absurd hh (hgood h' e2 e3)⟩⟩
    · rw [e1] at hh
      cases hh
      exact ⟨e2, e3⟩
    · rw [e1, Hyper.firstValues_unique e2 hh.1]
    · rw [e1] at hh
      cases hh
  · have e1 : Hyper.toHeaders m = .err 500 := e1
    refine ⟨fun h => ⟨fun hh => ?_, fun hh => absurd e2 (hgood h hh.1 hh.2)⟩, fun _ => e2, fun _ => e1⟩
    rw [e1] at hh
    cases hh

example : Hyper.toHeaders [(s!!"a", [[120], [121]]), (s!!"b", [[122]])] =
    .ok [(s!!"a", [s!!"x"]), (s!!"b", [s!!"z"])] := by decide +kernel

/-- There and back again the collection is the same exactly when every name has one value and all values are
ASCII. What is missing from the full claim: names with several values. -/
theorem C60_round_trip_partial (ok : Str → Bool) (h : Headers) (hw : LowerMap h) (hn : ∀ e ∈ h, Ascii e.1)
    (ha : Accepted ok h) :
    (Hyper.ofHeaders ok h).bind Hyper.toHeaders = .ok h ↔ ∀ e ∈ h, ∃ v, e.2 = [v] ∧ Ascii v := by
  rw [(C60_to_http ok h hw).1 ha, Res.bind_ok]
  have hm : HttpMap (asBytes h) := by
    constructor
    · unfold asBytes
      rw [List.map_map]
      exact hw.1
    · intro e he
      unfold asBytes at he
      obtain ⟨e', he', rfl⟩ := List.mem_map.mp he
      exact ⟨hn e' he', (hw.2 e' he').1, by simpa using (hw.2 e' he').2⟩
  rw [(C60_from_http _ hm).1 h]
  have hf : FirstValues (asBytes h) h ↔ ∀ e ∈ h, ∃ v, e.2 = [v] := by
    unfold FirstValues asBytes
    rw [List.forall₂_map_left_iff, List.forall₂_same]
    refine forall₂_congr fun e he => ?_
    constructor
    · rintro ⟨-, v, s, h1, h2, h3⟩
      exact ⟨s, h3⟩
    · rintro ⟨v, hv⟩
      exact ⟨rfl, utf8Encode v, v, by rw [hv]; rfl, rfl, hv⟩
  rw [hf]
  constructor
  · rintro ⟨h1, h2⟩ e he
    obtain ⟨v, hv⟩ := h1 e he
    exact ⟨v, hv, h2 e he v (by rw [hv]; simp)⟩
  · intro h1
    refine ⟨fun e he => (h1 e he).imp fun v hv => hv.1, fun e he v hv => ?_⟩
    obtain ⟨w, hw, ha⟩ := h1 e he
    rw [hw] at hv
    rw [List.mem_singleton.mp hv]
    exact ha

example : (Hyper.ofHeaders tokenName [(s!!"a", [s!!"1"]), (s!!"b", [s!!"2"])]).bind Hyper.toHeaders =
    .ok [(s!!"a", [s!!"1"]), (s!!"b", [s!!"2"])] := by decide +kernel

/-- A collection with two values for one name never comes back, though both conversions succeed. -/
theorem C60_violated_values (ok : Str → Bool) (h : Headers) (hw : LowerMap h) (hn : ∀ e ∈ h, Ascii e.1)
    (ha : Accepted ok h) (h2 : ∃ e ∈ h, 2 ≤ e.2.length) :
    (Hyper.ofHeaders ok h).bind Hyper.toHeaders ≠ .ok h := by
  intro he
  obtain ⟨e, hm, hl⟩ := h2
  obtain ⟨v, hv, -⟩ := (C60_round_trip_partial ok h hw hn ha).mp he e hm
  rw [hv] at hl
  simp at hl

example : (Hyper.ofHeaders tokenName [(s!!"set-cookie", [s!!"a=1", s!!"b=2"])]).bind Hyper.toHeaders =
    .ok [(s!!"set-cookie", [s!!"a=1"])] := by decide +kernel

/-! ### C60: messages -/

namespace Hyper

theorem addHeaders_skip (vs : List (List Byte)) (rest : List (Option Str × List Byte)) (h : Headers) :
    ((∀ v ∈ vs, ∃ s, IsText v s) →
      addHeaders (vs.map (fun v => (none, v)) ++ rest) h = addHeaders rest h) ∧
    (¬ (∀ v ∈ vs, ∃ s, IsText v s) → addHeaders (vs.map (fun v => (none, v)) ++ rest) h = none) := by
  induction vs with
  | nil => exact ⟨fun _ => rfl, fun h => absurd (by simp) h⟩
  | cons v vs ih =>
    rw [List.map_cons, List.cons_append, addHeaders, List.forall_mem_cons]
    cases hd : utf8Decode v with
    | none =>
      refine ⟨fun h => ?_, fun _ => rfl⟩
      obtain ⟨⟨s, hs⟩, -⟩ := h
      rw [utf8Decode_eq_some_iff.mpr hs] at hd
      cases hd
    | some s =>
      refine ⟨fun h => ih.1 h.2, fun h => ih.2 fun h' => h ⟨⟨s, utf8Decode_eq_some_iff.mp hd⟩, h'⟩⟩

theorem append_value (h : Headers) (n : HeaderName) (s : HeaderValue) :
    Headers.append h n (.value s) = (FMap.set h n ((h.get n).getD [] ++ [s]), .ok ()) := by
  unfold Headers.append Headers.get
  cases FMap.get h n <;> rfl

theorem addHeaders_eq (m : HMap) (h : Headers) (hm : ∀ e ∈ m, NoUpper e.1 ∧ e.2 ≠ [])
    (hd : (m.map Prod.fst).Nodup) :
    (AllText m → ∃ h', addHeaders (intoIter m) h = some (.ok h') ∧ ∀ n, BaseAndFirst m (h.get n) h' n) ∧
      (¬ AllText m → addHeaders (intoIter m) h = none) := by
  induction m generalizing h with
  | nil =>
    refine ⟨fun _ => ⟨h, rfl, fun n => ⟨fun _ => rfl, fun v vs s hv => by simp at hv⟩⟩, fun hn => ?_⟩
    exact absurd (fun e he => by simp at he) hn
  | cons e m ih =>
    obtain ⟨n, vs⟩ := e
    obtain ⟨hu, hne⟩ := hm (n, vs) (by simp)
    cases vs with
    | nil => exact absurd rfl hne
    | cons v vs =>
      have hall : AllText ((n, v :: vs) :: m) ↔ (∃ s, IsText v s) ∧ (∀ v ∈ vs, ∃ s, IsText v s) ∧ AllText m := by
        unfold AllText
        rw [List.forall_mem_cons, List.forall_mem_cons, and_assoc]
      rw [hall, intoIter_cons, addHeaders]
      cases hdv : utf8Decode v with
      | none =>
        refine ⟨fun h => ?_, fun _ => rfl⟩
        obtain ⟨⟨s, hs⟩, -⟩ := h
        rw [utf8Decode_eq_some_iff.mpr hs] at hdv
        cases hdv
      | some s =>
        have hs : IsText v s := utf8Decode_eq_some_iff.mp hdv
        simp only [append_value, Mime.lower_of_noUpper hu]
        rw [List.map_cons, List.nodup_cons] at hd
        obtain ⟨i1, i2⟩ := ih (FMap.set h n ((h.get n).getD [] ++ [s])) (fun e he => hm e (by simp [he])) hd.2
        obtain ⟨s1, s2⟩ := addHeaders_skip vs (intoIter m) (FMap.set h n ((h.get n).getD [] ++ [s]))
        constructor
        · rintro ⟨-, h1, h2⟩
          obtain ⟨h', e1, e2⟩ := i1 h2
          refine ⟨h', (s1 h1).trans e1, fun k => ?_⟩
          obtain ⟨f1, f2⟩ := e2 k
          have hget : Headers.get (FMap.set h n ((h.get n).getD [] ++ [s])) k =
              if n = k then some ((h.get n).getD [] ++ [s]) else h.get k := FMap.get_set _ _ _ _
          rw [hget] at f1 f2
          constructor
          · intro hk
            simp only [List.map_cons, List.mem_cons, not_or] at hk
            rw [f1 hk.2, if_neg (fun e => hk.1 e.symm)]
          · intro w ws t hw ht
            rcases List.mem_cons.mp hw with hw | hw
            · cases hw
              rw [f1 hd.1, if_pos rfl, isText_unique ht hs]
            · have hk : n ≠ k := by
                rintro rfl
                exact hd.1 (List.mem_map.mpr ⟨_, hw, rfl⟩)
              rw [f2 w ws t hw ht, if_neg hk]
        · intro hno
          by_cases h1 : ∀ v ∈ vs, ∃ s, IsText v s
          · rw [s1 h1]
            exact i2 fun h2 => hno ⟨⟨s, hs⟩, h1, h2⟩
          · exact s2 h1

end Hyper

section
variable {Uri Url β : Type}

/-- The headers of a message right after its body has been set: the body's media type, if it has one. -/
theorem C60_base (I : BodyI β) (b : β) (n : HeaderName) :
    ((Msg.new I).setBody I b).headers.get n =
      if n = s!!"content-type" then (I.mime b).map fun m => [m.display] else none := by
  obtain ⟨h1, h2⟩ := C12_absent I (Msg.new I) (.set b) rfl
  by_cases hn : n = s!!"content-type"
  · rw [if_pos hn, hn]; exact h2
  · rw [if_neg hn]; exact h1 n hn

example : ((Msg.new exampleI).setBody exampleI 4).headers.get s!!"content-type" = some [s!!"application/json"] := by decide +kernel

/-- Converting a request of the crate whose values are all UTF-8: method, target, version and body are kept, and each
header has the first value the crate has for it, after the body's own media type in the case of the content
type. -/
theorem C60_request (I : BodyI β) (parse : Uri → Option Url) (r : Hyper.HRequest Uri β) (hm : HttpMap r.headers)
    (ht : AllText r.headers) (m : Method) (hmeth : sameName r.method m.asStr = true) (u : Url)
    (hu : parse r.uri = some u) :
    ∃ q, Hyper.toRequest I parse r = some (.ok q) ∧ q.method = m ∧ q.url = u ∧
      q.version = some (Hyper.toVersion r.version) ∧ q.msg.body = r.body ∧
      ∀ n, BaseAndFirst r.headers (if n = s!!"content-type" then (I.mime r.body).map fun m => [m.display] else none)
        q.msg.headers n := by
  obtain ⟨h', e1, e2⟩ := (Hyper.addHeaders_eq r.headers ((Msg.new I).setBody I r.body).headers
    (fun e he => (hm.2 e he).2) hm.1).1 ht
  refine ⟨⟨m, u, some (Hyper.toVersion r.version), { (Msg.new I).setBody I r.body with headers := h' }⟩, ?_, rfl, rfl, rfl, ?_, ?_⟩
  · unfold Hyper.toRequest
    rw [((C67_method_from r.method).1 m).mpr hmeth]
    simp only [hu, e1]
    rfl
  · exact C12_new_body I (Msg.new I) (.set r.body)
  · intro n
    rw [← C60_base]
    exact e2 n

example : (Hyper.toRequest exampleI (fun u : Str => some u) ⟨s!!"get", s!!"/x", .http11, [(s!!"a", [[98], [99]])], 3⟩).map
      (fun r => r.map fun q => (q.method, q.url, q.msg.headers.get s!!"a")) =
    some (.ok (.get, s!!"/x", some [s!!"b"])) := by decide +kernel

/-- The same for a response. -/
theorem C60_response (I : BodyI β) (r : Hyper.HResponse β) (hm : HttpMap r.headers) (ht : AllText r.headers)
    (c : StatusCode) (hc : c.toNat = r.status) :
    ∃ q, Hyper.toResponse I r = some (.ok q) ∧ q.status = c ∧ q.version = some (Hyper.toVersion r.version) ∧
      q.msg.body = r.body ∧
      ∀ n, BaseAndFirst r.headers (if n = s!!"content-type" then (I.mime r.body).map fun m => [m.display] else none)
        q.msg.headers n := by
  obtain ⟨h', e1, e2⟩ := (Hyper.addHeaders_eq r.headers ((Msg.new I).setBody I r.body).headers
    (fun e he => (hm.2 e he).2) hm.1).1 ht
  refine ⟨⟨c, some (Hyper.toVersion r.version), { (Msg.new I).setBody I r.body with headers := h' }⟩, ?_, rfl, rfl, ?_, ?_⟩
  · unfold Hyper.toResponse
    rw [((C67_status_from r.status).1 c).mpr hc]
    simp only [e1]
    rfl
  · exact C12_new_body I (Msg.new I) (.set r.body)
  · intro n
    rw [← C60_base]
    exact e2 n

example : (Hyper.toResponse exampleI ⟨404, .http2, [(s!!"a", [[98], [99]])], 3⟩).map
      (fun r => r.map fun q => (q.status, q.msg.headers.get s!!"a")) =
    some (.ok (.notFound, some [s!!"b"])) := by decide +kernel

/-- What does not convert: an unknown method or status panics, a target that is no URL is an error. -/
theorem C60_refused (I : BodyI β) (parse : Uri → Option Url) (r : Hyper.HRequest Uri β) (q : Hyper.HResponse β) :
    ((∀ m : Method, sameName r.method m.asStr = false) → Hyper.toRequest I parse r = some .panic) ∧
      (∀ m : Method, sameName r.method m.asStr = true → parse r.uri = none → Hyper.toRequest I parse r = some (.err 500)) ∧
      (statusNumber q.status = false → Hyper.toResponse I q = some .panic) := by
  refine ⟨fun h => ?_, fun m hm hu => ?_, fun h => ?_⟩
  · unfold Hyper.toRequest
    rw [(C67_method_from r.method).2.mpr h]
  · unfold Hyper.toRequest
    rw [((C67_method_from r.method).1 m).mpr hm]
    simp only [hu]
  · unfold Hyper.toResponse
    rw [(C67_status_from q.status).2.mpr h]

example : (Hyper.toResponse exampleI ⟨299, .http2, [], 3⟩).map (fun r => r.map fun q => q.status) = some .panic := by decide +kernel

/-- A request with a content type whose body has a media type ends up with both as values of the content type,
the body's first. -/
theorem C60_violated_content_type (I : BodyI β) (parse : Uri → Option Url) (r : Hyper.HRequest Uri β)
    (hm : HttpMap r.headers) (ht : AllText r.headers) (m : Method) (hmeth : sameName r.method m.asStr = true)
    (u : Url) (hu : parse r.uri = some u) (mime : Mime) (hb : I.mime r.body = some mime)
    (v : List Byte) (vs : List (List Byte)) (s : Str) (hv : (s!!"content-type", v :: vs) ∈ r.headers)
    (hs : IsText v s) :
    ∃ q, Hyper.toRequest I parse r = some (.ok q) ∧
      q.msg.headers.get s!!"content-type" = some [mime.display, s] := by
  obtain ⟨q, e, -, -, -, -, h⟩ := C60_request I parse r hm ht m hmeth u hu
  refine ⟨q, e, ?_⟩
  rw [(h _).2 v vs s hv hs, if_pos rfl, hb]
  rfl

example : ((Hyper.toResponse exampleI ⟨200, .http11, [(s!!"content-type", [[97, 47, 98]])], 4⟩).map
      fun r => r.map fun q => q.msg.headers.get s!!"content-type") =
    some (.ok (some [s!!"application/json", s!!"a/b"])) := by decide +kernel

/-- A message with a header value that is not UTF-8, which the crate allows, is undefined behaviour. -/
theorem C60_violated_undefined (I : BodyI β) (parse : Uri → Option Url) (r : Hyper.HRequest Uri β)
    (q : Hyper.HResponse β) (hr : HttpMap r.headers) (hq : HttpMap q.headers) (hrt : ¬ AllText r.headers)
    (hqt : ¬ AllText q.headers) (m : Method) (hmeth : sameName r.method m.asStr = true) (u : Url)
    (hu : parse r.uri = some u) (c : StatusCode) (hc : c.toNat = q.status) :
    Hyper.toRequest I parse r = none ∧ Hyper.toResponse I q = none := by
  constructor
  · unfold Hyper.toRequest
    rw [((C67_method_from r.method).1 m).mpr hmeth]
    simp only [hu, (Hyper.addHeaders_eq r.headers _ (fun e he => (hr.2 e he).2) hr.1).2 hrt]
    rfl
  · unfold Hyper.toResponse
    rw [((C67_status_from q.status).1 c).mpr hc]
    simp only [(Hyper.addHeaders_eq q.headers _ (fun e he => (hq.2 e he).2) hq.1).2 hqt]
    rfl

example : (Hyper.toResponse exampleI ⟨200, .http11, [(s!!"a", [[255]])], 4⟩).isNone := by decide +kernel

/-- A message conversion stores header values that are not ASCII. -/
theorem C04_violated_hyperium :
    ((Hyper.toResponse exampleI ⟨200, .http11, [(s!!"a", [[195, 169]])], 4⟩).map
      fun r => r.map fun q => q.msg.headers.get s!!"a") = some (.ok (some [s!!"é"])) ∧ ¬ Ascii s!!"é" := by
  decide +kernel

/-! ### C68: converting a message to the crate -/

theorem ofHeadersUnwrap_eq (ok : Str → Bool) (h : Headers) (hw : LowerMap h) :
    (Accepted ok h → Hyper.ofHeadersUnwrap ok h = .ok (asBytes h)) ∧
      (¬ Accepted ok h → Hyper.ofHeadersUnwrap ok h = .panic) := by
  obtain ⟨hd, hw⟩ := hw
  constructor
  · intro ha
    have := Hyper.ofLoop_ok (convN := fun n => Res.unwrap (Hyper.nameOf ok n))
      (conv := fun v => Res.unwrap (Hyper.valueOf v)) h [] (by simpa [FMap.keys] using hd)
      (fun e he => (hw e he).2)
      (fun e he => by simp only [Hyper.nameOf_lower ok (hw e he).1, (ha e he).1, if_true, Res.unwrap_some])
      (fun e he v hv => by simp only [(Hyper.valueOf_eq v).1 ((ha e he).2 v hv), Res.unwrap_some])
    exact this.trans (by rfl)
  · intro ha
    refine Hyper.ofLoop_fail (fail := fun {α} => (.panic : Res α)) (fun f => rfl) h [] ?_ ?_ ?_
    · intro e he
      rw [Hyper.nameOf_lower ok (hw e he).1]
      cases ok e.1
      · exact .inr rfl
      · exact .inl rfl
    · intro e he v hv
      by_cases ht : HttpText v
      · rw [(Hyper.valueOf_eq v).1 ht]; exact .inl rfl
      · rw [(Hyper.valueOf_eq v).2 ht]; exact .inr rfl
    · by_contra hno
      apply ha
      intro e he
      constructor
      · by_contra ho
        refine hno ⟨e, he, .inl ?_⟩
        rw [Hyper.nameOf_lower ok (hw e he).1, if_neg ho]
        rfl
      · intro v hv
        by_contra ht
        refine hno ⟨e, he, .inr ⟨v, hv, ?_⟩⟩
        rw [(Hyper.valueOf_eq v).2 ht]
        rfl

/-- The version sent: HTTP/1.1 when the message has none. -/
def sentVersion : Option Version → HVersion
  | some v => Hyper.ofVersion v
  | none => .http11

/-- Converting a request keeps everything when the crate takes the target and every header, and panics otherwise. -/
theorem C68_request_partial (ok : Str → Bool) (display : Url → Option Uri) (r : Hyper.Req Url β)
    (hw : LowerMap r.msg.headers) :
    (∀ u, display r.url = some u → Accepted ok r.msg.headers →
      Hyper.ofRequest ok display r =
        .ok ⟨r.method.asStr, u, sentVersion r.version, asBytes r.msg.headers, r.msg.body⟩) ∧
    (display r.url = none ∨ ¬ Accepted ok r.msg.headers → Hyper.ofRequest ok display r = .panic) := by
  unfold Hyper.ofRequest
  rw [(C67_method r.method).1, Res.bind_ok]
  constructor
  · intro u hu ha
    rw [hu, (ofHeadersUnwrap_eq ok _ hw).1 ha]
    cases hv : r.version <;> rfl
  · rintro (h | h)
    · rw [h]; rfl
    · cases display r.url with
      | none => rfl
      | some u => rw [(ofHeadersUnwrap_eq ok _ hw).2 h]; rfl

example : (Hyper.ofRequest tokenName (fun u : Str => some u)
      ⟨.get, s!!"/x", some .http1_0, ⟨[(s!!"a", [s!!"b", s!!"c"])], 3⟩⟩).map (fun r => (r.method, r.uri, FMap.get r.headers s!!"a")) =
    .ok (s!!"GET", s!!"/x", some [[98], [99]]) := by decide +kernel

/-- The same for a response. -/
theorem C68_response_partial (ok : Str → Bool) (r : Hyper.Resp β) (hw : LowerMap r.msg.headers) :
    (Accepted ok r.msg.headers →
      Hyper.ofResponse ok r = .ok ⟨r.status.toNat, sentVersion r.version, asBytes r.msg.headers, r.msg.body⟩) ∧
    (¬ Accepted ok r.msg.headers → Hyper.ofResponse ok r = .panic) := by
  have hs : Hyper.statusOfU16 r.status.toNat = some r.status.toNat := by
    have := (C67_status r.status).1
    unfold Hyper.ofStatus at this
    cases h : Hyper.statusOfU16 r.status.toNat with
    | none => rw [h] at this; cases this
    | some n => rw [h] at this; cases this; rfl
  unfold Hyper.ofResponse
  rw [hs]
  constructor
  · intro ha
    rw [(ofHeadersUnwrap_eq ok _ hw).1 ha]
    cases hv : r.version <;> rfl
  · intro h
    rw [(ofHeadersUnwrap_eq ok _ hw).2 h]
    rfl

example : (Hyper.ofResponse tokenName ⟨.notFound, none, ⟨[(s!!"a", [s!!"b", s!!"c"])], 3⟩⟩).map (fun r => (r.status, r.headers)) =
    .ok (404, [(s!!"a", [[98], [99]])]) := by decide +kernel

/-- A name with a blank, or a value with a line break, is stored without complaint and makes the conversion of
the message panic. -/
theorem C68_violated :
    ((Headers.insertStr [] s!!"a b" (.str s!!"x")).2 = .ok none ∧
      Hyper.ofResponse tokenName ⟨.ok, none, ⟨(Headers.insertStr [] s!!"a b" (.str s!!"x")).1, ()⟩⟩ = .panic) ∧
    ((Headers.insertStr [] s!!"a" (.str s!!"x\ny")).2 = .ok none ∧
      Hyper.ofResponse tokenName ⟨.ok, none, ⟨(Headers.insertStr [] s!!"a" (.str s!!"x\ny")).1, ()⟩⟩ = .panic) := by
  refine ⟨⟨by decide +kernel, ?_⟩, ⟨by decide +kernel, ?_⟩⟩ <;> rfl

end

end HT
