import Verif.Model.Multisig
/-!
# Lemmas about multisignatures and the batch verifier
-/

namespace Verif.Multisig
open Verif

/-! ## Batches -/

/-- The batch holding the given (key, message, signature) triples. -/
def batchOf (ts : List (Bytes × Bytes × Bytes)) : BatchVerifier :=
  ⟨ts.map fun t => t.2.1, ts.map fun t => t.1, ts.map fun t => t.2.2⟩

theorem batchOf_concat (ts : List (Bytes × Bytes × Bytes)) (pk m s : Bytes) :
    (batchOf ts).enqueSig pk m s = batchOf (ts ++ [(pk, m, s)]) := by
  simp [batchOf, BatchVerifier.enqueSig]

theorem foldl_enque (ts us : List (Bytes × Bytes × Bytes)) :
    ts.foldl (fun b t => b.enqueSig t.1 t.2.1 t.2.2) (batchOf us) = batchOf (us ++ ts) := by
  induction ts generalizing us with
  | nil => simp
  | cons t ts ih => rw [List.foldl_cons, batchOf_concat, ih]; simp

theorem verifyFrom_eq (S : Scheme) (ts : List (Bytes × Bytes × Bytes)) : ∀ (is : List Nat),
    (∀ i ∈ is, i < ts.length) →
    ((∀ i t, i ∈ is → ts[i]? = some t → S.verify t.1 t.2.1 t.2.2 = true) ∧
      (batchOf ts).verifyFrom S is = .ok ()) ∨
    ((∃ t ∈ ts, S.verify t.1 t.2.1 t.2.2 = false) ∧
      (batchOf ts).verifyFrom S is = .err .verificationFailed)
  | [], _ => Or.inl ⟨by simp, rfl⟩
  | i :: is, h => by
    have hi : i < ts.length := h i (by simp)
    have hg : ts[i]? = some ts[i] := List.getElem?_eq_getElem hi
    generalize ts[i] = t at hg
    rw [BatchVerifier.verifyFrom]
    simp only [batchOf, List.getElem?_map, hg, Option.map_some, Res.ofOption_some, Res.ok_bind]
    by_cases hv : S.verify t.1 t.2.1 t.2.2 = true
    · rw [hv]
      simp only [if_true]
      rcases verifyFrom_eq S ts is (fun j hj => h j (by simp [hj])) with ⟨h1, h2⟩ | ⟨h1, h2⟩
      · refine Or.inl ⟨?_, h2⟩
        intro j u hj hu
        rcases List.mem_cons.1 hj with rfl | hj
        · rw [hg] at hu; injection hu with hu; subst hu; exact hv
        · exact h1 j u hj hu
      · exact Or.inr ⟨h1, h2⟩
    · rw [Bool.not_eq_true] at hv
      rw [hv]
      exact Or.inr ⟨⟨t, List.mem_of_getElem? hg, hv⟩, rfl⟩

theorem batch_verify_eq (S : Scheme) (ts : List (Bytes × Bytes × Bytes)) :
    (batchOf ts).verify S =
      if ts = [] then .err .zeroTransactionsInBatch
      else if ∀ t ∈ ts, S.verify t.1 t.2.1 t.2.2 = true then .ok () else .err .verificationFailed := by
  rw [BatchVerifier.verify]
  have hn : (batchOf ts).numSigsEnqued = ts.length := by simp [BatchVerifier.numSigsEnqued, batchOf]
  have hm : (batchOf ts).messages.length = ts.length := by simp [batchOf]
  rw [hn, hm]
  by_cases he : ts = []
  · subst he; rfl
  · rw [if_neg (by simpa using he), if_neg he]
    rcases verifyFrom_eq S ts (List.range ts.length) (by simp) with ⟨h1, h2⟩ | ⟨⟨t, ht, hf⟩, h2⟩
    · rw [h2, if_pos]
      intro t ht
      obtain ⟨i, hi, hlt⟩ := List.mem_iff_getElem.1 ht
      exact h1 i t (by simp [hi]) (by rw [List.getElem?_eq_getElem hi, hlt])
    · rw [h2, if_neg]
      intro hall
      rw [hall t ht] at hf; cases hf

/-! ## Enqueueing a multisignature -/

/-- The triples a multisignature enqueues. -/
def triples (msg : Bytes) (ss : List Subsig) : List (Bytes × Bytes × Bytes) :=
  ss.filterMap fun s => s.sig.map fun sg => (s.key, msg, sg)

theorem triples_length (msg : Bytes) (ss : List Subsig) :
    (triples msg ss).length = (ss.filter fun s => s.sig.isSome).length := by
  induction ss with
  | nil => rfl
  | cons s ss ih =>
    cases h : s.sig with
    | none => simpa [triples, h] using ih
    | some sg => simpa [triples, h] using ih

theorem enqueAll_eq (msg : Bytes) : ∀ (ss : List Subsig) (ts : List (Bytes × Bytes × Bytes)) (n : Nat),
    n + (triples msg ss).length < 256 →
    enqueAll msg ss (batchOf ts) n = .ok (batchOf (ts ++ triples msg ss), n + (triples msg ss).length)
  | [], ts, n, _ => by simp [enqueAll, triples]
  | s :: ss, ts, n, h => by
    rw [enqueAll]
    cases hs : s.sig with
    | none =>
      have : triples msg (s :: ss) = triples msg ss := by simp [triples, hs]
      rw [this] at h ⊢
      exact enqueAll_eq msg ss ts n h
    | some sg =>
      have : triples msg (s :: ss) = (s.key, msg, sg) :: triples msg ss := by simp [triples, hs]
      rw [this] at h ⊢
      simp only [List.length_cons] at h ⊢
      rw [if_pos (by omega), batchOf_concat, enqueAll_eq msg ss _ (n + 1) (by omega)]
      simp only [List.append_assoc, List.singleton_append]
      congr 2
      omega

theorem mem_triples {msg : Bytes} {ss : List Subsig} {t : Bytes × Bytes × Bytes} :
    t ∈ triples msg ss ↔ ∃ s ∈ ss, ∃ sg, s.sig = some sg ∧ t = (s.key, msg, sg) := by
  rw [triples, List.mem_filterMap]
  constructor
  · rintro ⟨s, hs, h⟩
    cases hg : s.sig with
    | none => rw [hg] at h; cases h
    | some sg => rw [hg] at h; injection h with h; exact ⟨s, hs, sg, hg, h.symm⟩
  · rintro ⟨s, hs, sg, hg, rfl⟩
    exact ⟨s, hs, by rw [hg]; rfl⟩

/-! ## Key comparison -/

theorem keysMatch_eq (a b : List Subsig) : ∀ (n j : Nat), a.length = j + n → b.length = j + n →
    keysMatch a b j n = if (a.drop j).map Subsig.key = (b.drop j).map Subsig.key then .ok ()
      else .err .keysDontMatch
  | 0, j, ha, hb => by
    rw [keysMatch, List.drop_of_length_le (by omega), List.drop_of_length_le (by omega)]; rfl
  | n + 1, j, ha, hb => by
    have h1 : j < a.length := by omega
    have h2 : j < b.length := by omega
    rw [keysMatch, List.getElem?_eq_getElem h1, List.getElem?_eq_getElem h2]
    simp only [Res.ofOption_some, Res.ok_bind]
    rw [List.drop_eq_getElem_cons h1, List.drop_eq_getElem_cons h2]
    by_cases hk : a[j].key = b[j].key
    · rw [if_neg (by simpa using hk), keysMatch_eq a b n (j + 1) (by omega) (by omega)]
      simp only [List.map_cons, hk, List.cons.injEq, true_and]
    · rw [if_pos hk, if_neg]
      simp only [List.map_cons, List.cons.injEq]
      exact fun h => hk h.1

theorem keysMatch_full (a b : List Subsig) (h : a.length = b.length) :
    keysMatch a b 0 a.length = if a.map Subsig.key = b.map Subsig.key then .ok () else .err .keysDontMatch := by
  have := keysMatch_eq a b a.length 0 (by omega) (by omega)
  simpa using this

theorem matches_eq (m o : Msig) : m.matches o m.subsigs.length = .ok () ↔
    m.threshold = o.threshold ∧ m.version = o.version ∧
      m.subsigs.map Subsig.key = o.subsigs.map Subsig.key := by
  rw [Msig.matches]
  by_cases h1 : m.threshold = o.threshold
  · rw [if_neg (by simpa using h1)]
    by_cases h2 : m.version = o.version
    · rw [if_neg (by simpa using h2)]
      by_cases h3 : m.subsigs.length = o.subsigs.length
      · rw [if_neg (by simpa using h3), keysMatch_full _ _ h3]
        split
        · rename_i h4; simp [h1, h2, h4]
        · rename_i h4; simp [h4]
      · rw [if_pos h3]
        simp only [reduceCtorEq, false_iff, not_and]
        intro _ _ h4
        have := congrArg List.length h4
        simp at this; exact h3 this
    · rw [if_pos h2]; simp [h2]
  · rw [if_pos h1]; simp [h1]

theorem matches_no_panic (m o : Msig) : m.matches o m.subsigs.length ≠ .panic := by
  rw [Msig.matches]
  split
  · simp
  · split
    · simp
    · split
      · simp
      · rename_i h3
        rw [keysMatch_full _ _ (by simpa using h3)]
        split <;> simp

/-! ## Overlaying -/

/-- Overlay one list of subsignatures on another. -/
def over (u m : Subsig) : Subsig := if u.sig.isSome then { m with sig := u.sig } else m

theorem overlay_eq (u : List Subsig) : ∀ (ms : List Subsig) (j : Nat), u.length = j + ms.length →
    overlay u j ms = .ok (List.zipWith over (u.drop j) ms)
  | [], j, h => by simp [overlay]
  | m :: ms, j, h => by
    have h1 : j < u.length := by simp at h; omega
    rw [overlay, List.getElem?_eq_getElem h1]
    simp only [Res.ofOption_some, Res.ok_bind]
    rw [overlay_eq u ms (j + 1) (by simp at h; omega), List.drop_eq_getElem_cons h1]
    rfl

theorem over_keys : ∀ (u ms : List Subsig), u.length = ms.length →
    (List.zipWith over u ms).map Subsig.key = ms.map Subsig.key
  | [], [], _ => rfl
  | [], m :: ms, h => by simp at h
  | u :: us, [], h => by simp at h
  | u :: us, m :: ms, h => by
    simp only [List.zipWith_cons_cons, List.map_cons, over_keys us ms (by simpa using h), List.cons.injEq,
      and_true]
    rw [over]; split <;> rfl

/-- What overlaying a list of partial signatures over the same keys gives. -/
theorem overlayAll_ok (P : Bytes → Bytes → Prop) (keys : List Bytes) : ∀ (us : List Msig) (ms : List Subsig),
    (∀ u ∈ us, u.subsigs.map Subsig.key = keys) → ms.map Subsig.key = keys →
    (∀ u ∈ us, ∀ s ∈ u.subsigs, ∀ sg, s.sig = some sg → P s.key sg) →
    (∀ s ∈ ms, ∀ sg, s.sig = some sg → P s.key sg) →
    ∃ out, overlayAll us ms = .ok out ∧ out.map Subsig.key = keys ∧
      (∀ s ∈ out, ∀ sg, s.sig = some sg → P s.key sg) ∧
      ∀ (i : Nat) (s : Subsig), out[i]? = some s → (s.sig.isSome = true ↔
        (∃ m, ms[i]? = some m ∧ m.sig.isSome = true) ∨
        ∃ u ∈ us, ∃ m, u.subsigs[i]? = some m ∧ m.sig.isSome = true) := by
  intro us
  induction us with
  | nil =>
    intro ms _ hk _ hv
    refine ⟨ms, rfl, hk, hv, ?_⟩
    intro i s hs
    constructor
    · intro h; exact Or.inl ⟨s, hs, h⟩
    · rintro (⟨m, hm, h⟩ | ⟨u, hu, _⟩)
      · rw [hs] at hm; injection hm with hm; subst hm; exact h
      · cases hu
  | cons u us ih =>
    intro ms huk hk huv hv
    have hlen : u.subsigs.length = ms.length := by
      have h1 := congrArg List.length (huk u (by simp))
      have h2 := congrArg List.length hk
      simp at h1 h2; omega
    have hov := overlay_eq u.subsigs ms 0 (by omega)
    rw [List.drop_zero] at hov
    have hget : ∀ (i : Nat) (z : Subsig), (List.zipWith over u.subsigs ms)[i]? = some z →
        ∃ x y, u.subsigs[i]? = some x ∧ ms[i]? = some y ∧ z = over x y := by
      intro i z hz
      rw [List.getElem?_zipWith] at hz
      cases hx : u.subsigs[i]? with
      | none => rw [hx] at hz; cases hz
      | some x =>
        cases hy : ms[i]? with
        | none => rw [hx, hy] at hz; cases hz
        | some y => rw [hx, hy] at hz; injection hz with hz; exact ⟨x, y, rfl, rfl, hz.symm⟩
    have hkey : ∀ (i : Nat) (x y : Subsig), u.subsigs[i]? = some x → ms[i]? = some y → x.key = y.key := by
      intro i x y hx hy
      have h1 : (u.subsigs.map Subsig.key)[i]? = some x.key := by rw [List.getElem?_map, hx]; rfl
      have h2 : (ms.map Subsig.key)[i]? = some y.key := by rw [List.getElem?_map, hy]; rfl
      rw [huk u (by simp)] at h1
      rw [hk, h1] at h2
      injection h2
    obtain ⟨out, h1, h2, h3, h4⟩ := ih (List.zipWith over u.subsigs ms) (fun v hv' => huk v (by simp [hv']))
      (by rw [over_keys _ _ hlen, hk]) (fun v hv' => huv v (by simp [hv'])) (by
        intro z hz sg hsg
        obtain ⟨i, hi⟩ := List.mem_iff_getElem?.1 hz
        obtain ⟨x, y, hx, hy, rfl⟩ := hget i z hi
        rw [over] at hsg ⊢
        by_cases hxs : x.sig.isSome = true
        · rw [if_pos hxs] at hsg ⊢
          simp only at hsg ⊢
          rw [← hkey i x y hx hy]
          exact huv u (by simp) x (List.mem_of_getElem? hx) sg hsg
        · rw [if_neg hxs] at hsg ⊢
          exact hv y (List.mem_of_getElem? hy) sg hsg)
    refine ⟨out, by rw [overlayAll, hov, Res.ok_bind, h1], h2, h3, ?_⟩
    intro i s hs
    rw [h4 i s hs]
    constructor
    · rintro (⟨m, hm, h⟩ | ⟨v, hv', h⟩)
      · obtain ⟨x, y, hx, hy, rfl⟩ := hget i m hm
        rw [over] at h
        by_cases hxs : x.sig.isSome = true
        · exact Or.inr ⟨u, by simp, x, hx, hxs⟩
        · rw [if_neg hxs] at h
          exact Or.inl ⟨y, hy, h⟩
      · exact Or.inr ⟨v, by simp [hv'], h⟩
    · have hi : i < (List.zipWith over u.subsigs ms).length := by
        have e1 := congrArg List.length h2
        have e2 := congrArg List.length hk
        have := (List.getElem?_eq_some_iff.1 hs).1
        simp at e1 e2
        rw [List.length_zipWith]; omega
      have hz := List.getElem?_eq_getElem hi
      generalize (List.zipWith over u.subsigs ms)[i] = z at hz
      obtain ⟨x, y, hx, hy, rfl⟩ := hget i z hz
      rintro (⟨m, hm, h⟩ | ⟨v, hv', m, hm, h⟩)
      · rw [hy] at hm; injection hm with hm; subst hm
        refine Or.inl ⟨_, hz, ?_⟩
        rw [over]; split
        · assumption
        · exact h
      · rcases List.mem_cons.1 hv' with rfl | hv'
        · rw [hx] at hm; injection hm with hm; subst hm
          refine Or.inl ⟨_, hz, ?_⟩
          rw [over, if_pos h]; exact h
        · exact Or.inr ⟨v, hv', m, hm, h⟩

/-! ## Merging -/

/-- Two subsignatures do not contradict each other. -/
def Agree (x y : Subsig) : Prop := ∀ a b, x.sig = some a → y.sig = some b → a = b

/-- Combine two subsignatures. -/
def comb (x y : Subsig) : Subsig := ⟨x.key, x.sig.or y.sig⟩

theorem mergeLoop_eq (o : List Subsig) : ∀ (ss : List Subsig) (i : Nat), o.length = i + ss.length →
    ((∀ (k : Nat) (x y : Subsig), ss[k]? = some x → o[i + k]? = some y → Agree x y) ∧
      mergeLoop o i ss = .ok (List.zipWith comb ss (o.drop i))) ∨
    ((∃ (k : Nat) (x y : Subsig), ss[k]? = some x ∧ o[i + k]? = some y ∧ ¬ Agree x y) ∧
      mergeLoop o i ss = .err .invalidDuplicates)
  | [], i, _ => Or.inl ⟨by simp, by simp [mergeLoop]⟩
  | s :: ss, i, h => by
    have h1 : i < o.length := by simp at h; omega
    have hg := List.getElem?_eq_getElem h1
    have hd := List.drop_eq_getElem_cons h1
    generalize o[i] = y at hg hd
    rw [mergeLoop, hg, hd]
    simp only [Res.ofOption_some, Res.ok_bind]
    have hcase : (Agree s y ∧ (if s.sig.isNone then
        (if y.sig.isSome then .ok y.sig else .ok none)
      else if y.sig.isNone ∨ y.sig = s.sig then .ok s.sig
      else .err .invalidDuplicates : Res MultisigError (Option Bytes)) = .ok (s.sig.or y.sig)) ∨
      (¬ Agree s y ∧ (if s.sig.isNone then
        (if y.sig.isSome then .ok y.sig else .ok none)
      else if y.sig.isNone ∨ y.sig = s.sig then .ok s.sig
      else .err .invalidDuplicates : Res MultisigError (Option Bytes)) = .err .invalidDuplicates) := by
      cases hs : s.sig with
      | none =>
        left
        refine ⟨fun a b ha => (by rw [hs] at ha; cases ha), ?_⟩
        cases hy : y.sig <;> simp
      | some a =>
        cases hy : y.sig with
        | none =>
          left
          exact ⟨fun a b ha hb => (by rw [hy] at hb; cases hb), by simp⟩
        | some b =>
          by_cases hab : b = a
          · left
            refine ⟨fun a' b' ha' hb' => ?_, by simp [hab]⟩
            rw [hs] at ha'; rw [hy] at hb'
            injection ha' with ha'; injection hb' with hb'
            rw [← ha', ← hb', hab]
          · right
            exact ⟨fun hg => hab (hg a b hs hy).symm, by simp [hab]⟩
    rcases hcase with ⟨hag, hc⟩ | ⟨hag, hc⟩
    · rw [hc]
      simp only [Res.ok_bind]
      rcases mergeLoop_eq o ss (i + 1) (by simp at h; omega) with ⟨g1, g2⟩ | ⟨⟨k, x, z, k1, k2, k3⟩, g2⟩
      · refine Or.inl ⟨?_, by rw [g2]; rfl⟩
        intro k x z hx hz
        cases k with
        | zero =>
          simp at hx hz; subst hx; rw [hg] at hz; injection hz with hz; subst hz; exact hag
        | succ k =>
          refine g1 k x z (by simpa using hx) ?_
          rw [← hz]; congr 1; omega
      · refine Or.inr ⟨⟨k + 1, x, z, by simpa using k1, ?_, k3⟩, by rw [g2]; rfl⟩
        rw [← k2]; congr 1; omega
    · rw [hc]
      exact Or.inr ⟨⟨0, s, y, by simp, by simpa using hg, hag⟩, rfl⟩

/-! ## Adding signatures -/

theorem addOne_keys (u : List Subsig) : ∀ (ss : List Subsig) (i : Nat),
    (addOne u i ss).1.map Subsig.key = ss.map Subsig.key
  | [], i => rfl
  | s :: ss, i => by
    rw [addOne]
    split
    · rfl
    · split
      · split
        · simp [addOne_keys u ss (i + 1)]
        · split
          · rfl
          · simp [addOne_keys u ss (i + 1)]
      · simp [addOne_keys u ss (i + 1)]

/-- Whatever the outcome, each subsignature stays or receives the other's signature. -/
theorem addOne_get (u : List Subsig) : ∀ (ss : List Subsig) (i k : Nat) (z : Subsig),
    (addOne u i ss).1[k]? = some z →
    ∃ s, ss[k]? = some s ∧ (z = s ∨ (s.sig = none ∧ ∃ o, u[i + k]? = some o ∧ o.sig.isSome = true ∧
      z = { s with sig := o.sig }))
  | [], i, k, z, h => by simp [addOne] at h
  | s :: ss, i, k, z, h => by
    have step : ∀ (w : Subsig), ((w :: (addOne u (i + 1) ss).1)[k]? = some z) →
        (w = s ∨ (s.sig = none ∧ ∃ o, u[i]? = some o ∧ o.sig.isSome = true ∧ w = { s with sig := o.sig })) →
        ∃ s', (s :: ss)[k]? = some s' ∧ (z = s' ∨ (s'.sig = none ∧ ∃ o, u[i + k]? = some o ∧
          o.sig.isSome = true ∧ z = { s' with sig := o.sig })) := by
      intro w hw hor
      cases k with
      | zero => simp at hw; subst hw; exact ⟨s, by simp, by simpa using hor⟩
      | succ k =>
        obtain ⟨s', h1, h2⟩ := addOne_get u ss (i + 1) k z (by simpa using hw)
        refine ⟨s', by simpa using h1, ?_⟩
        rw [show i + (k + 1) = i + 1 + k by omega]; exact h2
    rw [addOne] at h
    split at h
    · exact ⟨z, h, Or.inl rfl⟩
    · rename_i o ho
      split at h
      · rename_i hos
        split at h
        · rename_i hsn
          exact step _ h (Or.inr ⟨by simpa using hsn, o, ho, hos, rfl⟩)
        · split at h
          · exact ⟨z, h, Or.inl rfl⟩
          · exact step _ h (Or.inl rfl)
      · exact step _ h (Or.inl rfl)

theorem addOne_no_panic (u : List Subsig) : ∀ (ss : List Subsig) (i : Nat), u.length = i + ss.length →
    ((addOne u i ss).2 = .ok () ∧ ∀ (k : Nat) (z o : Subsig), (addOne u i ss).1[k]? = some z →
      u[i + k]? = some o → o.sig.isSome = true → z.sig = o.sig) ∨
    ((addOne u i ss).2 = .err .invalidDuplicates ∧ ∃ (k : Nat) (s o : Subsig), ss[k]? = some s ∧
      u[i + k]? = some o ∧ ¬ Agree s o)
  | [], i, h => Or.inl ⟨rfl, by simp [addOne]⟩
  | s :: ss, i, h => by
    have h1 : i < u.length := by simp at h; omega
    have hg := List.getElem?_eq_getElem h1
    generalize u[i] = o at hg
    have ih := addOne_no_panic u ss (i + 1) (by simp at h; omega)
    have step : ∀ (w : Subsig), (o.sig.isSome = true → w.sig = o.sig) →
        ((w :: (addOne u (i + 1) ss).1, (addOne u (i + 1) ss).2).2 = .ok () ∧
          ∀ (k : Nat) (z o : Subsig), (w :: (addOne u (i + 1) ss).1, (addOne u (i + 1) ss).2).1[k]? = some z →
          u[i + k]? = some o → o.sig.isSome = true → z.sig = o.sig) ∨
        ((w :: (addOne u (i + 1) ss).1, (addOne u (i + 1) ss).2).2 = .err .invalidDuplicates ∧
          ∃ (k : Nat) (s' o : Subsig), (s :: ss)[k]? = some s' ∧ u[i + k]? = some o ∧ ¬ Agree s' o) := by
      intro w hw
      rcases ih with ⟨g1, g2⟩ | ⟨g1, k, s', o', k1, k2, k3⟩
      · refine Or.inl ⟨g1, ?_⟩
        intro k z o' hz ho' hs
        cases k with
        | zero =>
          simp at hz ho'; subst hz; rw [hg] at ho'; injection ho' with ho'; subst ho'; exact hw hs
        | succ k =>
          refine g2 k z o' (by simpa using hz) ?_ hs
          rw [← ho']; congr 1; omega
      · refine Or.inr ⟨g1, k + 1, s', o', by simpa using k1, ?_, k3⟩
        rw [← k2]; congr 1; omega
    rw [addOne, hg]
    simp only
    split
    · rename_i hos
      split
      · exact step _ (fun _ => rfl)
      · rename_i hsn
        split
        · rename_i hne
          refine Or.inr ⟨rfl, 0, s, o, by simp, by simpa using hg, ?_⟩
          intro hag
          cases hs : s.sig with
          | none => rw [hs] at hsn; exact hsn rfl
          | some a =>
            cases ho : o.sig with
            | none => rw [ho] at hos; cases hos
            | some b => rw [hs, ho] at hne; exact hne (by rw [hag a b hs ho])
        · rename_i hne
          exact step _ (fun _ => by simpa using hne)
    · rename_i hos
      exact step _ (fun h => absurd h hos)

end Verif.Multisig
