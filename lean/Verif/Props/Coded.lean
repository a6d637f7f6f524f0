import Verif.Spec.Coded
import Verif.Props.Content

/-! C134: a body that was coded by several layers arrives as it was. -/

namespace HT
open Spec

variable {α β : Type} {F : CodingField α}

/-- What is used of the two fields. -/
structure ReadsLastLine (F : CodingField α) : Prop where
  absent : ∀ h : Headers, h.get F.name = none → F.read h = .ok none
  last : ∀ (h : Headers) vs e, h.get F.name = some (vs ++ [F.text e]) → F.read h = .ok (some e)

theorem content_last : ReadsLastLine contentField := by
  obtain ⟨h1, -, h3, -⟩ := C43_reads_partial
  refine ⟨h1, fun h vs e hg => (h3 h _ e hg).mpr ⟨vs, _, [], rfl, by cases e <;> decide, by simp⟩⟩

theorem transfer_last : ReadsLastLine transferField := by
  obtain ⟨-, h2, -, h4⟩ := C43_reads_partial
  refine ⟨h2, fun h vs e hg => (h4 h _ e hg).mpr ⟨vs, _, [], rfl, by cases e <;> decide, by simp⟩⟩

/-- The body after the layers. -/
def codedBody (K : Codec F β) (es : List α) (b : β) : β := es.foldl (fun b e => K.enc e b) b

theorem codedBody_snoc (K : Codec F β) (es : List α) (e : α) (b : β) :
    codedBody K (es ++ [e]) b = K.enc e (codedBody K es b) := by simp [codedBody]

theorem replace_run (K : Codec F β) (es : List α) (h : Headers) (b : β) (hn : h.get F.name = none) :
    ∃ h', es.foldl K.replace (.ok (h, b)) = .ok (h', codedBody K es b) ∧
      h'.get F.name = es.getLast?.map fun e => [F.text e] := by
  induction es using List.reverseRecOn with
  | nil => exact ⟨h, rfl, hn⟩
  | append_singleton es e ih =>
    obtain ⟨h', h1, -⟩ := ih
    refine ⟨FMap.set h' F.name [F.text e], ?_, ?_⟩
    · rw [List.foldl_append, h1, codedBody_snoc]
      rfl
    · rw [get_set_self]; simp

theorem add_run (K : Codec F β) (es : List α) (h : Headers) (b : β) (hn : h.get F.name = none) :
    ∃ h', es.foldl K.add (.ok (h, b)) = .ok (h', codedBody K es b) ∧
      h'.get F.name = if es = [] then none else some (es.map F.text) := by
  induction es using List.reverseRecOn with
  | nil => exact ⟨h, rfl, hn⟩
  | append_singleton es e ih =>
    obtain ⟨h', h1, h2⟩ := ih
    have ha : ∃ h'', h'.append F.name (.value (F.text e)) = (h'', .ok ()) ∧
        h''.get F.name = some ((es ++ [e]).map F.text) := by
      unfold Headers.append
      cases es with
      | nil =>
        rw [show FMap.get h' F.name = none from h2]
        exact ⟨FMap.set h' F.name [F.text e], rfl, get_set_self _ _ _⟩
      | cons x xs =>
        rw [show FMap.get h' F.name = some ((x :: xs).map F.text) from h2]
        refine ⟨FMap.set h' F.name ((x :: xs).map F.text ++ [F.text e]), rfl, ?_⟩
        rw [get_set_self, List.map_append]
        rfl
    obtain ⟨h'', h3, h4⟩ := ha
    refine ⟨h'', ?_, ?_⟩
    · rw [List.foldl_append, h1, codedBody_snoc]
      simp only [List.foldl_cons, List.foldl_nil, Codec.add, Res.bind_ok, h3]
    · rw [h4, if_neg (by simp)]

theorem codedBody_plain (K : Codec F β) {es : List α} (hp : ∀ e ∈ es, e = F.plain) (b : β) : codedBody K es b = b := by
  induction es using List.reverseRecOn with
  | nil => rfl
  | append_singleton es e ih =>
    rw [codedBody_snoc, ih fun x hx => hp x (by simp [hx]), hp e (by simp), K.plain]

/-- Codings that write their name before the body. -/
def marks [DecidableEq α] (F : CodingField α) : Codec F (List α) where
  enc e b := if e = F.plain then b else e :: b
  dec e b := if e = F.plain then b else b.tail
  undo e b := by
    by_cases h : e = F.plain
    · rw [if_pos h, if_pos h]
    · rw [if_neg h, if_neg h]; rfl
  plain b := if_pos rfl

theorem marks_body [DecidableEq α] (es : List α) : codedBody (marks F) es [] = (es.filter (· ≠ F.plain)).reverse := by
  induction es using List.reverseRecOn with
  | nil => rfl
  | append_singleton es e ih =>
    rw [codedBody_snoc, ih]
    by_cases h : e = F.plain <;> simp [marks, h]

/-- What a client gets that undoes one coding, if the last line names the last coding. -/
theorem once_iff [DecidableEq α] (hF : ReadsLastLine F) (es : List α)
    (send : {β : Type} → Codec F β → Headers × β → Res (Headers × β))
    (hs : ∀ {β : Type} (K : Codec F β) (h : Headers) (b : β), h.get F.name = none → ∃ h', send K (h, b) = .ok (h', codedBody K es b) ∧
      (es = [] ∧ h'.get F.name = none ∨ ∃ e vs, es.getLast? = some e ∧ h'.get F.name = some (vs ++ [F.text e]))) :
    ArrivesAs (F := F) send Codec.once ↔ ∀ e ∈ es.dropLast, e = F.plain := by
  have key : ∀ {β : Type} (K : Codec F β) (h : Headers) (b : β), h.get F.name = none →
      (send K (h, b)).bind K.once = .ok (match es.getLast? with
        | none => b
        | some e => K.dec e (codedBody K es b)) := by
    intro β K h b hn
    obtain ⟨h', h1, h2⟩ := hs K h b hn
    rw [h1, Res.bind_ok]
    unfold Codec.once
    rcases h2 with ⟨rfl, h2⟩ | ⟨e, vs, h2, h3⟩
    · rw [hF.absent _ h2]; rfl
    · rw [hF.last _ _ _ h3, h2]; rfl
  constructor
  · intro ha
    have := ha _ (marks F) [] [] rfl
    rw [key _ _ _ rfl] at this
    rcases List.eq_nil_or_concat es with rfl | ⟨as, e, rfl⟩
    · simp
    · rw [List.concat_eq_append] at this ⊢
      rw [List.getLast?_concat, codedBody_snoc] at this
      simp only [(marks F).undo, marks_body, Res.ok.injEq, List.reverse_eq_nil_iff, List.filter_eq_nil_iff] at this
      rw [List.dropLast_concat]
      intro x hx
      simpa using this x hx
  · intro hp β K h b hn
    rw [key K h b hn]
    rcases List.eq_nil_or_concat es with rfl | ⟨as, e, rfl⟩
    · rfl
    · rw [List.concat_eq_append] at hp ⊢
      rw [List.dropLast_concat] at hp
      rw [List.getLast?_concat, codedBody_snoc]
      simp only [K.undo, codedBody_plain K hp]

theorem one_coding_iff [DecidableEq α] (hF : ReadsLastLine F) (es : List α) :
    (ArrivesAs (F := F) (fun K m => es.foldl K.replace (.ok m)) Codec.once ↔ ∀ e ∈ es.dropLast, e = F.plain) ∧
    (ArrivesAs (F := F) (fun K m => es.foldl K.add (.ok m)) Codec.once ↔ ∀ e ∈ es.dropLast, e = F.plain) := by
  constructor
  · refine once_iff hF es _ fun K h b hn => ?_
    obtain ⟨h', h1, h2⟩ := replace_run K es h b hn
    refine ⟨h', h1, ?_⟩
    cases hl : es.getLast? with
    | none => exact .inl ⟨List.getLast?_eq_none_iff.mp hl, by rw [h2, hl]; rfl⟩
    | some e => exact .inr ⟨e, [], rfl, by rw [h2, hl]; rfl⟩
  · refine once_iff hF es _ fun K h b hn => ?_
    obtain ⟨h', h1, h2⟩ := add_run K es h b hn
    refine ⟨h', h1, ?_⟩
    rcases List.eq_nil_or_concat es with rfl | ⟨as, e, rfl⟩
    · exact .inl ⟨rfl, h2⟩
    · refine .inr ⟨e, as.map F.text, by simp, ?_⟩
      rw [h2]
      simp

/-- Layers that say their coding with `apply_header`: the body arrives as it was exactly if only the last layer codes. The
same holds of layers that add a line, with a client that undoes one coding. -/
theorem C134_one_coding_iff_partial (es : List Encoding) (ts : List TEncoding) :
    (ArrivesAs (F := contentField) (fun K m => es.foldl K.replace (.ok m)) Codec.once ↔ ∀ e ∈ es.dropLast, e = .identity) ∧
    (ArrivesAs (F := contentField) (fun K m => es.foldl K.add (.ok m)) Codec.once ↔ ∀ e ∈ es.dropLast, e = .identity) ∧
    (ArrivesAs (F := transferField) (fun K m => ts.foldl K.replace (.ok m)) Codec.once ↔ ∀ e ∈ ts.dropLast, e = .identity) ∧
    (ArrivesAs (F := transferField) (fun K m => ts.foldl K.add (.ok m)) Codec.once ↔ ∀ e ∈ ts.dropLast, e = .identity) :=
  ⟨(one_coding_iff content_last es).1, (one_coding_iff content_last es).2, (one_coding_iff transfer_last ts).1,
    (one_coding_iff transfer_last ts).2⟩

example : ArrivesAs (F := contentField) (fun K m => [Encoding.identity, .gzip].foldl K.replace (.ok m)) Codec.once :=
  (C134_one_coding_iff_partial _ []).1.mpr (by decide)
example : ¬ ArrivesAs (F := transferField) (fun K m => [TEncoding.gzip, .chunked].foldl K.replace (.ok m)) Codec.once :=
  fun h => absurd ((C134_one_coding_iff_partial [] _).2.2.1.mp h) (by decide)

theorem every_coding (hF : ReadsLastLine F) (es : List α) (n : Nat) (hn : es.length ≤ n) :
    ArrivesAs (F := F) (fun K m => es.foldl K.add (.ok m)) (fun K => K.all n) := by
  intro β K h b hg
  obtain ⟨h', h1, h2⟩ := add_run K es h b hg
  show (es.foldl K.add (.ok (h, b))).bind (K.all n) = .ok b
  rw [h1, Res.bind_ok]
  clear h1 hg
  induction es using List.reverseRecOn generalizing n h' with
  | nil =>
    cases n with
    | zero => rfl
    | succ n =>
      simp only [Codec.all]
      rw [hF.absent _ h2]
      rfl
  | append_singleton es e ih =>
    cases n with
    | zero => simp at hn
    | succ n =>
      rw [if_neg (by simp)] at h2
      have hr := hF.last h' (es.map F.text) e (by rw [h2]; simp)
      simp only [Codec.all]
      rw [hr, Res.bind_ok, codedBody_snoc]
      simp only [K.undo]
      have hl : es.length ≤ n := by simpa using hn
      rw [h2]
      cases es with
      | nil =>
        rfl
      | cons x xs =>
        have : ∃ w ws, (x :: xs ++ [e]).map F.text = F.text x :: w :: ws := by
          cases xs <;> exact ⟨_, _, rfl⟩
        obtain ⟨w, ws, hw⟩ := this
        rw [hw]
        refine ih n hl _ ?_
        rw [if_neg (by simp), ← hw]
        simp only [Headers.insert, HvArg.toValues]
        rw [get_set_self, List.map_append]
        exact congrArg some List.dropLast_concat

/-- Layers that add a line, and a client that goes on until no line is left: the body arrives as it was, whatever the
layers. -/
theorem C134_every_coding (es : List Encoding) (ts : List TEncoding) (n : Nat) :
    (es.length ≤ n → ArrivesAs (F := contentField) (fun K m => es.foldl K.add (.ok m)) (fun K => K.all n)) ∧
    (ts.length ≤ n → ArrivesAs (F := transferField) (fun K m => ts.foldl K.add (.ok m)) (fun K => K.all n)) :=
  ⟨every_coding content_last es n, every_coding transfer_last ts n⟩

example : ArrivesAs (F := contentField) (fun K m => [Encoding.gzip, .brotli, .gzip].foldl K.add (.ok m)) (fun K => K.all 3) :=
  (C134_every_coding _ [] _).1 (by decide)

/-- A layer that codes before another one that says its coding with `apply_header` is never undone: some body arrives
coded, whatever the second one does. -/
theorem C134_violated_layers :
    (∀ es (e : Encoding) es' e', e ≠ .identity →
      ¬ ArrivesAs (F := contentField) (fun K m => (es ++ e :: es' ++ [e']).foldl K.replace (.ok m)) Codec.once) ∧
    (∀ ts (t : TEncoding) ts' t', t ≠ .identity →
      ¬ ArrivesAs (F := transferField) (fun K m => (ts ++ t :: ts' ++ [t']).foldl K.replace (.ok m)) Codec.once) := by
  refine ⟨fun es e es' e' he h => he ((one_coding_iff content_last _).1.mp h e ?_),
    fun ts t ts' t' ht h => ht ((one_coding_iff transfer_last _).1.mp h t ?_)⟩ <;>
  · rw [List.dropLast_concat]
    simp

example : (applyHeader [(s!!"transfer-encoding", [s!!"gzip"])] s!!"transfer-encoding" (.ok (TEncoding.display .chunked))) =
    .ok [(s!!"transfer-encoding", [s!!"chunked"])] := by decide +kernel

end HT
