import Verif.Spec.Updates
import Verif.Props.Validators

/-! C129: changes guarded by `If-Match` are not lost. -/

namespace HT
open Spec

/-- The server lets a change through that names the legal tag `e` exactly if `e` is the tag of the present version and
has no comma. -/
theorem C129_lets (current e : ETag) (req : Headers) (he : EtagLegal e) :
    lets current e req = true ↔ e = current ∧ ',' ∉ etagBody e := by
  have hs : sendTags false [(e, [])] req =
      (applyHeader req s!!"if-match" (IfMatch.value ⟨[e], false⟩)).bind IfMatch.fromHeaders := by
    unfold sendTags
    simp only [Res.mapM]
    rw [(C118_learn e []).1 he]
    rfl
  obtain ⟨h1, h2⟩ := C118_tags_partial false [(e, [])] req
  unfold lets
  rw [← hs]
  by_cases hc : ',' ∈ etagBody e
  · rw [h2 fun h => (h.2 (e, []) (by simp)).2 hc]
    simp [hc]
  · rw [h1 ⟨by simp, by simpa using ⟨he, hc⟩⟩]
    simp [hc, eq_comm]

example : EtagLegal (.strong s!!"v7") ∧ lets (.strong s!!"v7") (.strong s!!"v7") (oneHeader s!!"age" s!!"3") = true ∧
    lets (.strong s!!"v8") (.strong s!!"v7") [] = false ∧ lets (.weak s!!"v7") (.strong s!!"v7") [] = false := by
  simp only [EtagLegal]; decide +kernel

/-- What holds after all acts: a client holds the tag of the version that it read, which is legal and not newer than the
present one; and each accepted change replaced a newer version than the one before. -/
structure Kept (tag : Nat → ETag) (d : Document) : Prop where
  held : ∀ k e, d.held k = some e → EtagLegal e ∧ ∃ v, d.base k = some v ∧ v ≤ d.version ∧ tag v = e
  before : ∀ p ∈ d.accepted, p.2 < d.version
  sorted : d.accepted.Pairwise fun p q => p.2 < q.2
  based : ∀ p ∈ d.accepted, ∃ v, p.1 = some v ∧ v ≤ p.2 ∧ tag v = tag p.2 ∧ RoundTag (tag p.2)

theorem Kept.step {tag : Nat → ETag} {d : Document} (h : Kept tag d) (a : Act) : Kept tag (d.step tag a) := by
  cases a with
  | read k resp =>
    simp only [Document.step]
    by_cases hl : EtagLegal (tag d.version)
    · rw [(C118_learn _ resp).1 hl]
      refine ⟨?_, h.before, h.sorted, h.based⟩
      intro i e hi
      simp only [setAt] at hi ⊢
      split at hi
      · cases hi
        rename_i hik
        simp only [hik, if_true]
        exact ⟨hl, _, rfl, Nat.le_refl _, rfl⟩
      · rename_i hik
        simp only [hik, if_false]
        exact h.held i e hi
    · rw [(C118_learn _ resp).2 hl]
      exact h
  | change k req =>
    simp only [Document.step]
    cases hk : d.held k with
    | none => exact h
    | some e =>
      obtain ⟨hl, v, hv, hle, ht⟩ := h.held k e hk
      simp only
      split
      · rename_i hlets
        obtain ⟨rfl, hc⟩ := (C129_lets _ _ _ hl).mp hlets
        refine ⟨?_, ?_, ?_, ?_⟩
        · intro i e' hi
          obtain ⟨h1, w, h2, h3, h4⟩ := h.held i e' hi
          exact ⟨h1, w, h2, Nat.le_succ_of_le h3, h4⟩
        · intro p hp
          rcases List.mem_append.mp hp with hp | hp
          · exact Nat.lt_succ_of_lt (h.before p hp)
          · simp only [List.mem_singleton] at hp
            subst hp
            exact Nat.lt_succ_self _
        · refine List.pairwise_append.mpr ⟨h.sorted, List.pairwise_singleton _ _, ?_⟩
          intro p hp q hq
          simp only [List.mem_singleton] at hq
          subst hq
          exact h.before p hp
        · intro p hp
          rcases List.mem_append.mp hp with hp | hp
          · exact h.based p hp
          · simp only [List.mem_singleton] at hp
            subst hp
            exact ⟨v, hv, hle, ht, hl, hc⟩
      · exact h
  | other =>
    refine ⟨?_, ?_, h.sorted, h.based⟩
    · intro i e' hi
      obtain ⟨h1, w, h2, h3, h4⟩ := h.held i e' hi
      exact ⟨h1, w, h2, Nat.le_succ_of_le h3, h4⟩
    · intro p hp
      exact Nat.lt_succ_of_lt (h.before p hp)

theorem kept_run (tag : Nat → ETag) (acts : List Act) : Kept tag (Document.run tag acts) := by
  unfold Document.run
  have : ∀ d, Kept tag d → Kept tag (acts.foldl (Document.step tag) d) := by
    induction acts with
    | nil => exact fun d h => h
    | cons a as ih => exact fun d h => ih _ (h.step a)
  exact this _ ⟨by simp [Document.new], by simp [Document.new], by simp [Document.new], by simp [Document.new]⟩

theorem docRun_append (tag : Nat → ETag) (a b : List Act) :
    Document.run tag (a ++ b) = b.foldl (Document.step tag) (Document.run tag a) := by
  simp [Document.run]

theorem others (tag : Nat → ETag) (n : Nat) (d : Document) :
    (List.replicate n Act.other).foldl (Document.step tag) d = { d with version := d.version + n } := by
  induction n generalizing d with
  | zero => rfl
  | succ n ih =>
    rw [List.replicate_succ, List.foldl_cons, ih]
    simp only [Document.step, Document.mk.injEq, and_self, and_true]
    omega

/-- A client that reads the present version holds its tag, if that is legal. -/
theorem step_read {tag : Nat → ETag} {d : Document} (k : Nat) (resp : Headers) (h : EtagLegal (tag d.version)) :
    d.step tag (.read k resp) =
      { d with held := setAt d.held k (some (tag d.version)), base := setAt d.base k (some d.version) } := by
  simp only [Document.step]
  rw [(C118_learn _ resp).1 h]

/-- Whatever the clients do, in whatever order and with whatever other headers, no change is lost; and this holds for
exactly those ways to give tags in which no tag that makes the way to the client and back is given to two versions. -/
theorem C129_nothing_lost (tag : Nat → ETag) :
    (∀ acts, NothingLost (Document.run tag acts)) ↔ ∀ v w, RoundTag (tag v) → tag v = tag w → v = w := by
  constructor
  · intro h v w hc ht
    by_contra hne
    wlog hlt : v < w generalizing v w
    · exact this w v (ht ▸ hc) ht.symm (Ne.symm hne) (by omega)
    have hrun := h (List.replicate v .other ++ ([.read 0 []] ++ (List.replicate (w - v) .other ++ [.change 0 []])))
    rw [docRun_append, List.foldl_append, List.foldl_append] at hrun
    have h0 : Document.run tag (List.replicate v .other) = ⟨v, fun _ => none, fun _ => none, []⟩ := by
      unfold Document.run
      rw [others]
      simp [Document.new]
    have h1 : Document.step tag ⟨v, fun _ => none, fun _ => none, []⟩ (.read 0 []) = _ := step_read 0 [] hc.1
    rw [h0, show ∀ d, List.foldl (Document.step tag) d [.read 0 []] = d.step tag (.read 0 []) from fun _ => rfl, h1,
      others] at hrun
    simp only [List.foldl_cons, List.foldl_nil, Document.step, setAt, if_true] at hrun
    have hw : v + (w - v) = w := by omega
    rw [hw, (C129_lets _ _ _ hc.1).mpr ⟨ht, hc.2⟩] at hrun
    have := hrun (some v, w) (by simp)
    simp only [Option.some.injEq] at this
    exact hne this
  · intro h acts p hp
    obtain ⟨v, h1, -, h3, h4⟩ := (kept_run tag acts).based p hp
    rw [h1, h v p.2 (h3 ▸ h4) h3]

/-- Give every version its number. -/
example : (∀ v w, RoundTag (ETag.strong (List.replicate v 'v')) →
      ETag.strong (List.replicate v 'v') = ETag.strong (List.replicate w 'v') → v = w) ∧
    (Document.run (fun v => .strong (List.replicate v 'v'))
      [.read 1 [], .read 2 (oneHeader s!!"age" s!!"3"), .change 1 [], .change 2 [], .read 2 [], .change 2 []]).accepted =
        [(some 0, 0), (some 1, 1)] := by
  constructor
  · intro v w _ h
    simpa using congrArg List.length (ETag.strong.inj h)
  · decide +kernel

/-- Of all changes whose clients had read the same version, at most one is accepted. -/
theorem C129_one_wins (tag : Nat → ETag) (h : ∀ v w, RoundTag (tag v) → tag v = tag w → v = w) (acts : List Act) :
    ((Document.run tag acts).accepted.map Prod.fst).Nodup := by
  have hl := (C129_nothing_lost tag).mpr h acts
  rw [List.nodup_iff_pairwise_ne, List.pairwise_map]
  refine (kept_run tag acts).sorted.imp_of_mem ?_
  intro p q hp hq hlt he
  rw [hl p hp, hl q hq, Option.some.injEq] at he
  omega

example : ((Document.run (fun v => .strong (List.replicate v 'v'))
    [.read 1 [], .read 2 [], .read 3 [], .change 2 [], .change 1 [], .change 3 []]).accepted.map Prod.fst) = [some 0] := by
  decide +kernel

/-- A client that has just read the document can change it, exactly if the tag makes the way to the client and back. -/
theorem C129_can_change_partial (tag : Nat → ETag) (acts : List Act) (k : Nat) (resp req : Headers)
    (hl : EtagLegal (tag (Document.run tag acts).version)) :
    let d := Document.run tag acts
    let d' := Document.run tag (acts ++ [.read k resp, .change k req])
    (d'.version = d.version + 1 ∧ d'.accepted = d.accepted ++ [(some d.version, d.version)]) ↔ RoundTag (tag d.version) := by
  intro d d'
  have hd : d' = (d.step tag (.read k resp)).step tag (.change k req) := by
    show Document.run tag _ = _
    rw [docRun_append]
    rfl
  clear_value d'
  change EtagLegal (tag d.version) at hl
  clear_value d
  rw [hd, step_read _ _ hl]
  simp only [Document.step, setAt, if_true]
  by_cases hc : ',' ∈ etagBody (tag d.version)
  · rw [Bool.eq_false_iff.mpr fun h => ((C129_lets _ _ req hl).mp h).2 hc]
    simp [RoundTag, hc]
  · rw [(C129_lets _ _ req hl).mpr ⟨rfl, hc⟩]
    simp only [if_true, and_self, true_iff]
    exact ⟨hl, hc⟩

example : EtagLegal ((fun v => ETag.strong (List.replicate v 'v')) 3) ∧
    (Document.run (fun v => .strong (List.replicate v 'v')) [.other, .other, .other]).version = 3 := by
  simp only [EtagLegal]; decide

/-- While the tag of the present version is legal but has a comma, no client can change the document, however often it
reads it and tries again. -/
theorem C129_violated_comma (tag : Nat → ETag) (acts more : List Act)
    (hl : EtagLegal (tag (Document.run tag acts).version)) (hc : ',' ∈ etagBody (tag (Document.run tag acts).version))
    (ho : .other ∉ more) :
    (Document.run tag (acts ++ more)).version = (Document.run tag acts).version ∧
    ∀ k resp, ((Document.run tag acts).step tag (.read k resp)).held k = some (tag (Document.run tag acts).version) := by
  constructor
  · induction more using List.reverseRecOn with
    | nil => simp
    | append_singleton more a ih =>
      have ih := ih fun h => ho (by simp [h])
      rw [← List.append_assoc, docRun_append, List.foldl_cons, List.foldl_nil]
      have hk := kept_run tag (acts ++ more)
      generalize Document.run tag (acts ++ more) = d at ih hk
      rw [← ih] at hl hc ⊢
      cases a with
      | read k resp => rw [step_read _ _ hl]
      | change k req =>
        simp only [Document.step]
        cases hh : d.held k with
        | none => rfl
        | some e =>
          simp only
          rw [if_neg]
          intro h
          obtain ⟨he, hn⟩ := (C129_lets _ _ _ (hk.held k e hh).1).mp h
          exact hn (he ▸ hc)
      | other => exact absurd (by simp) ho
  · intro k resp
    rw [step_read _ _ hl]
    simp [setAt]

example : EtagLegal ((fun _ => ETag.strong s!!"3,14") (Document.run (fun _ => ETag.strong s!!"3,14") []).version) ∧
    ',' ∈ etagBody ((fun _ => ETag.strong s!!"3,14") 0) ∧ Act.other ∉ [Act.read 1 [], .change 1 []] := by
  simp only [EtagLegal]; decide

end HT
