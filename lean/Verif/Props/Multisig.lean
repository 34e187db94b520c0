import Verif.Lemmas.Multisig
import Mathlib.Tactic.ByContra
import Mathlib.Data.List.Forall2
/-!
# Properties of multisignatures and the batch verifier (C16 - C20, C71)
-/

namespace Verif.Props
open Verif Verif.Multisig

/-! ## C20: batches -/

/-- Enqueue a list of (key, message, signature) triples on an empty batch. -/
def enqueueAll (ts : List (Bytes × Bytes × Bytes)) : BatchVerifier :=
  ts.foldl (fun b t => b.enqueSig t.1 t.2.1 t.2.2) BatchVerifier.new

theorem enqueueAll_eq (ts : List (Bytes × Bytes × Bytes)) : enqueueAll ts = batchOf ts := by
  have := foldl_enque ts []
  rw [List.nil_append] at this
  exact this

/-- C20: a batch verifies exactly when it is non-empty and every triple verifies; otherwise the error says
whether it was empty or contained a bad signature. It never panics. -/
theorem C20_batch_is_conjunction (S : Scheme) (ts : List (Bytes × Bytes × Bytes)) :
    ((enqueueAll ts).verify S = .ok () ↔ ts ≠ [] ∧ ∀ t ∈ ts, S.verify t.1 t.2.1 t.2.2 = true) ∧
    ((enqueueAll ts).verify S = .err .zeroTransactionsInBatch ↔ ts = []) ∧
    ((enqueueAll ts).verify S = .err .verificationFailed ↔ ∃ t ∈ ts, S.verify t.1 t.2.1 t.2.2 = false) ∧
    (enqueueAll ts).numSigsEnqued = ts.length := by
  rw [enqueueAll_eq, batch_verify_eq]
  refine ⟨?_, ?_, ?_, by simp [BatchVerifier.numSigsEnqued, batchOf]⟩
  · by_cases h : ts = []
    · simp [h]
    · by_cases h2 : ∀ t ∈ ts, S.verify t.1 t.2.1 t.2.2 = true
      · rw [if_neg h, if_pos h2]; exact ⟨fun _ => ⟨h, h2⟩, fun _ => rfl⟩
      · rw [if_neg h, if_neg h2]; exact ⟨fun e => (by cases e), fun e => absurd e.2 h2⟩
  · by_cases h : ts = []
    · simp [h]
    · rw [if_neg h]; split <;> simp [h]
  · by_cases h : ts = []
    · simp [h]
    · by_cases h2 : ∀ t ∈ ts, S.verify t.1 t.2.1 t.2.2 = true
      · rw [if_neg h, if_pos h2]
        refine ⟨fun e => (by cases e), ?_⟩
        rintro ⟨t, ht, hf⟩
        rw [h2 t ht] at hf; cases hf
      · rw [if_neg h, if_neg h2]
        refine ⟨fun _ => ?_, fun _ => rfl⟩
        by_contra hc
        apply h2
        intro t ht
        by_contra hf
        exact hc ⟨t, ht, by simpa using hf⟩

/-- C20: the order of enqueueing does not matter. -/
theorem C20_batch_order (S : Scheme) (ts us : List (Bytes × Bytes × Bytes)) (h : ts.Perm us) :
    (enqueueAll ts).verify S = (enqueueAll us).verify S := by
  rw [enqueueAll_eq, enqueueAll_eq, batch_verify_eq, batch_verify_eq]
  have h1 : ts = [] ↔ us = [] := ⟨fun e => by subst e; exact h.symm.eq_nil, fun e => by subst e; exact h.eq_nil⟩
  have h2 : (∀ t ∈ ts, S.verify t.1 t.2.1 t.2.2 = true) ↔ ∀ t ∈ us, S.verify t.1 t.2.1 t.2.2 = true :=
    ⟨fun e t ht => e t (h.mem_iff.2 ht), fun e t ht => e t (h.mem_iff.1 ht)⟩
  simp only [h1, h2]

/-- A toy scheme for the examples: a signature is the key followed by the message. -/
def toyScheme : Scheme where
  Sk := Bytes
  pub := fun sk => sk
  sign := fun sk m => sk ++ m
  verify := fun pk m s => s == pk ++ m

example : (enqueueAll [([1], [2], [1, 2]), ([3], [4], [3, 4])]).verify toyScheme = .ok () ∧
    (enqueueAll [([1], [2], [1, 2]), ([3], [4], [3])]).verify toyScheme = .err .verificationFailed := by
  decide

/-! ## C19: addresses -/

theorem flatten_inj : ∀ (a b : List Bytes), (∀ x ∈ a, x.length = 32) → (∀ x ∈ b, x.length = 32) →
    a.flatten = b.flatten → a = b
  | [], [], _, _, _ => rfl
  | [], y :: b, _, hb, h => by
    have := congrArg List.length h
    have hy := hb y (by simp)
    simp [hy] at this
    omega
  | x :: a, [], ha, _, h => by
    have := congrArg List.length h
    have hx := ha x (by simp)
    simp [hx] at this
  | x :: a, y :: b, ha, hb, h => by
    rw [List.flatten_cons, List.flatten_cons] at h
    obtain ⟨h1, h2⟩ := List.append_inj h (by rw [ha x (by simp), hb y (by simp)])
    rw [h1, flatten_inj a b (fun z hz => ha z (by simp [hz])) (fun z hz => hb z (by simp [hz])) h2]

/-- Specification: the string identifying a multisignature account. -/
def specAddrString (v t : UInt8) (pks : List Bytes) : Bytes :=
  ['M', 'u', 'l', 't', 'i', 's', 'i', 'g', 'A', 'd', 'd', 'r'].map (fun c => UInt8.ofNat c.toNat) ++ [v, t] ++ pks.flatten

theorem addrBuf_spec (v t : UInt8) (pks : List Bytes) : addrBuf v t pks = specAddrString v t pks := by
  have : addrPrefix = ['M', 'u', 'l', 't', 'i', 's', 'i', 'g', 'A', 'd', 'd', 'r'].map (fun c => UInt8.ofNat c.toNat) := by decide
  rw [addrBuf, specAddrString, this]; simp

/-- C19: which parameters have an address, and what it is; never a panic. -/
theorem C19_address_total (H : Bytes → Bytes) (v t : UInt8) (pks : List Bytes) :
    (v = 1 ∧ 1 ≤ t.toNat ∧ t.toNat ≤ pks.length → fromPks H v t pks = .ok (H (specAddrString v t pks))) ∧
    (v ≠ 1 → fromPks H v t pks = .err (.unknownVersion v)) ∧
    (v = 1 → (t.toNat = 0 ∨ pks.length < t.toNat) → fromPks H v t pks = .err .invalidThreshold) := by
  have ht : t = 0 ↔ t.toNat = 0 := ⟨fun h => by rw [h]; rfl, fun h => UInt8.toNat_inj.1 h⟩
  refine ⟨?_, ?_, ?_⟩
  · rintro ⟨h1, h2, h3⟩
    rw [fromPks, if_neg (by simpa using h1), if_neg, addrBuf_spec]
    rintro (h | h | h)
    · rw [ht] at h; omega
    · have : pks.length = 0 := by simpa using h
      omega
    · omega
  · intro h; rw [fromPks, if_pos h]
  · intro h1 h
    rw [fromPks, if_neg (by simpa using h1), if_pos]
    rcases h with h | h
    · exact Or.inl (ht.2 h)
    · exact Or.inr (Or.inr h)

/-- C19: equal addresses come from equal parameters, or the two identifying strings collide. -/
theorem C19_address_binding (H : Bytes → Bytes) (v t v' t' : UInt8) (pks pks' : List Bytes) (a : Bytes)
    (hk : ∀ x ∈ pks, x.length = 32) (hk' : ∀ x ∈ pks', x.length = 32)
    (h : fromPks H v t pks = .ok a) (h' : fromPks H v' t' pks' = .ok a) :
    (v = v' ∧ t = t' ∧ pks = pks') ∨
    (specAddrString v t pks ≠ specAddrString v' t' pks' ∧
      H (specAddrString v t pks) = H (specAddrString v' t' pks')) := by
  have key : ∀ (v t : UInt8) (pks : List Bytes), fromPks H v t pks = .ok a →
      H (specAddrString v t pks) = a := by
    intro v t pks h
    rw [fromPks] at h
    split at h
    · cases h
    · split at h
      · cases h
      · injection h
  by_cases he : specAddrString v t pks = specAddrString v' t' pks'
  · left
    simp only [specAddrString, List.append_assoc, List.append_cancel_left_eq] at he
    simp only [List.cons_append, List.nil_append, List.cons.injEq] at he
    exact ⟨he.1, he.2.1, flatten_inj _ _ hk hk' he.2.2⟩
  · right
    exact ⟨he, by rw [key v t pks h, key v' t' pks' h']⟩

example : fromPks id 1 2 [List.replicate 32 7, List.replicate 32 9] =
    .ok (specAddrString 1 2 [List.replicate 32 7, List.replicate 32 9]) :=
  (C19_address_total id 1 2 _).1 (by decide)

/-! ## C16: verification -/

/-- Specification of an acceptable multisignature, apart from the signatures themselves. -/
structure WellFormed (H : Bytes → Bytes) (m : Msig) (addr : Bytes) : Prop where
  version : m.version = 1
  threshold_pos : 1 ≤ m.threshold.toNat
  enough : m.threshold.toNat ≤ (m.subsigs.filter fun s => s.sig.isSome).length
  size : m.subsigs.length ≤ 255
  address : addr = H (specAddrString m.version m.threshold (m.subsigs.map Subsig.key))
  /-- the first entry is not blank (all-default key without signature) -/
  first : m.subsigs[0]? ≠ some ⟨1 :: List.replicate 31 0, none⟩

theorem batchVerify_eq (H : Bytes → Bytes) (m : Msig) (msg addr : Bytes) :
    (WellFormed H m addr ∧ m.batchVerify H msg addr BatchVerifier.new =
      .ok (true, batchOf (triples msg m.subsigs)) ∧ triples msg m.subsigs ≠ []) ∨
    (¬ WellFormed H m addr ∧ ∃ e, m.batchVerify H msg addr BatchVerifier.new = .err e) := by
  have hle : (m.subsigs.filter fun s => s.sig.isSome).length ≤ m.subsigs.length := List.length_filter_le _ _
  rw [Msig.batchVerify]
  by_cases h1 : m.subsigs.isEmpty ∨ m.subsigs[0]? = some Subsig.default
  · rw [if_pos h1]
    refine Or.inr ⟨?_, _, rfl⟩
    intro hw
    rcases h1 with h1 | h1
    · have : m.subsigs = [] := by simpa using h1
      have h2 := hw.enough
      have h3 := hw.threshold_pos
      rw [this] at h2; simp at h2; omega
    · exact hw.first h1
  · rw [if_neg h1]
    have htot := C19_address_total H m.version m.threshold (m.subsigs.map Subsig.key)
    rw [fromSubsigs]
    by_cases hv : m.version = 1
    · by_cases ht : 1 ≤ m.threshold.toNat ∧ m.threshold.toNat ≤ m.subsigs.length
      · rw [htot.1 ⟨hv, ht.1, by simpa using ht.2⟩, Res.ok_bind]
        by_cases ha : addr = H (specAddrString m.version m.threshold (m.subsigs.map Subsig.key))
        · rw [if_neg (by simpa using ha)]
          by_cases hs : m.subsigs.length > 255
          · rw [if_pos hs]
            exact Or.inr ⟨fun hw => by have := hw.size; omega, _, rfl⟩
          · rw [if_neg hs, if_neg (by omega)]
            by_cases hn : (m.subsigs.filter fun s => s.sig.isSome).length < m.threshold.toNat
            · rw [if_pos hn]
              exact Or.inr ⟨fun hw => by have := hw.enough; omega, _, rfl⟩
            · rw [if_neg hn]
              have hlen := triples_length msg m.subsigs
              have he := enqueAll_eq msg m.subsigs [] 0 (by rw [hlen]; omega)
              have hb : batchOf [] = BatchVerifier.new := rfl
              rw [hb] at he
              rw [he, Res.ok_bind]
              simp only [Nat.zero_add, List.nil_append]
              rw [if_neg (by rw [hlen]; omega)]
              refine Or.inl ⟨⟨hv, ht.1, by omega, by omega, ha, fun e => h1 (Or.inr e)⟩, rfl, ?_⟩
              intro e
              rw [e, List.length_nil] at hlen
              omega
        · rw [if_pos ha]
          exact Or.inr ⟨fun hw => ha hw.address, _, rfl⟩
      · have hbad : m.threshold.toNat = 0 ∨ (m.subsigs.map Subsig.key).length < m.threshold.toNat := by
          rw [List.length_map]; omega
        rw [htot.2.2 hv hbad]
        refine Or.inr ⟨fun hw => ?_, _, rfl⟩
        have h2 := hw.enough
        have h3 := hw.threshold_pos
        exact ht ⟨h3, by omega⟩
    · rw [htot.2.1 hv]
      exact Or.inr ⟨fun hw => hv hw.version, _, rfl⟩

theorem verify_cases (H : Bytes → Bytes) (S : Scheme) (m : Msig) (msg addr : Bytes) :
    (WellFormed H m addr ∧ (∀ s ∈ m.subsigs, ∀ sg, s.sig = some sg → S.verify s.key msg sg = true) ∧
      m.verify H S msg addr = .ok true) ∨
    (WellFormed H m addr ∧ (∃ s ∈ m.subsigs, ∃ sg, s.sig = some sg ∧ S.verify s.key msg sg = false) ∧
      m.verify H S msg addr = .ok false) ∨
    (¬ WellFormed H m addr ∧ ∃ e, m.verify H S msg addr = .err e) := by
  rcases batchVerify_eq H m msg addr with ⟨hw, hb, hne⟩ | ⟨hw, e, hb⟩
  · have hv : m.verify H S msg addr = if ∀ t ∈ triples msg m.subsigs, S.verify t.1 t.2.1 t.2.2 = true
        then .ok true else .ok false := by
      rw [Msig.verify, hb, Res.ok_bind]
      have hn : (batchOf (triples msg m.subsigs)).numSigsEnqued ≠ 0 := by
        simp only [BatchVerifier.numSigsEnqued, batchOf, List.length_map]
        rw [ne_eq, List.length_eq_zero_iff]; exact hne
      simp only [Bool.not_true, Bool.false_eq_true, if_false]
      rw [if_neg hn, batch_verify_eq, if_neg hne]
      by_cases hall : ∀ t ∈ triples msg m.subsigs, S.verify t.1 t.2.1 t.2.2 = true
      · rw [if_pos hall, if_pos hall]; rfl
      · rw [if_neg hall, if_neg hall]; rfl
    by_cases hall : ∀ t ∈ triples msg m.subsigs, S.verify t.1 t.2.1 t.2.2 = true
    · rw [if_pos hall] at hv
      refine Or.inl ⟨hw, ?_, hv⟩
      intro s hs sg hsg
      exact hall (s.key, msg, sg) (mem_triples.2 ⟨s, hs, sg, hsg, rfl⟩)
    · rw [if_neg hall] at hv
      refine Or.inr (Or.inl ⟨hw, ?_, hv⟩)
      by_contra hc
      apply hall
      intro t ht
      obtain ⟨s, hs, sg, hsg, rfl⟩ := mem_triples.1 ht
      by_contra hf
      exact hc ⟨s, hs, sg, hsg, by simpa using hf⟩
  · exact Or.inr (Or.inr ⟨hw, e, by rw [Msig.verify, hb]; rfl⟩)

/-- C16: acceptance means version 1, a positive threshold, at least threshold signed positions out of at
most 255, the address derived from version, threshold and keys, and every signature present valid for
the key at its position; nothing else is required but that the first entry is not blank. -/
theorem C16_accept_iff (H : Bytes → Bytes) (S : Scheme) (m : Msig) (msg addr : Bytes) :
    m.verify H S msg addr = .ok true ↔
      WellFormed H m addr ∧ ∀ s ∈ m.subsigs, ∀ sg, s.sig = some sg → S.verify s.key msg sg = true := by
  rcases verify_cases H S m msg addr with ⟨hw, ha, hv⟩ | ⟨hw, ⟨s, hs, sg, hsg, hf⟩, hv⟩ | ⟨hw, e, hv⟩
  · rw [hv]; exact ⟨fun _ => ⟨hw, ha⟩, fun _ => rfl⟩
  · rw [hv]
    refine ⟨fun e => (by cases e), fun h => ?_⟩
    rw [h.2 s hs sg hsg] at hf; cases hf
  · rw [hv]; exact ⟨fun e => (by cases e), fun h => absurd h.1 hw⟩

/-- C16: the threshold, directly: acceptance means at least `threshold ≥ 1` positions carry a signature
valid for that position's key. -/
theorem C16_threshold (H : Bytes → Bytes) (S : Scheme) (m : Msig) (msg addr : Bytes)
    (h : m.verify H S msg addr = .ok true) :
    1 ≤ m.threshold.toNat ∧ m.threshold.toNat ≤ (m.subsigs.filter fun s =>
      match s.sig with
      | some sg => S.verify s.key msg sg
      | none => false).length := by
  obtain ⟨hw, ha⟩ := (C16_accept_iff H S m msg addr).1 h
  refine ⟨hw.threshold_pos, ?_⟩
  have : (m.subsigs.filter fun s => s.sig.isSome) = m.subsigs.filter fun s =>
      match s.sig with
      | some sg => S.verify s.key msg sg
      | none => false := by
    apply List.filter_congr
    intro s hs
    cases hsg : s.sig with
    | none => rfl
    | some sg => simp [ha s hs sg hsg]
  rw [← this]; exact hw.enough

/-- C16: otherwise the answer is `false` (well formed, some signature bad) or an error; never a panic. -/
theorem C16_reject (H : Bytes → Bytes) (S : Scheme) (m : Msig) (msg addr : Bytes) :
    m.verify H S msg addr ≠ .panic ∧
    (m.verify H S msg addr = .ok false ↔ WellFormed H m addr ∧
      ∃ s ∈ m.subsigs, ∃ sg, s.sig = some sg ∧ S.verify s.key msg sg = false) ∧
    ((∃ e, m.verify H S msg addr = .err e) ↔ ¬ WellFormed H m addr) := by
  rcases verify_cases H S m msg addr with ⟨hw, ha, hv⟩ | ⟨hw, hs, hv⟩ | ⟨hw, e, hv⟩
  · rw [hv]
    refine ⟨by simp, ⟨fun e => (by cases e), ?_⟩, ⟨fun ⟨e, h⟩ => (by cases h), fun h => absurd hw h⟩⟩
    rintro ⟨_, s, hs, sg, hsg, hf⟩
    rw [ha s hs sg hsg] at hf; cases hf
  · rw [hv]
    exact ⟨by simp, ⟨fun _ => ⟨hw, hs⟩, fun _ => rfl⟩, ⟨fun ⟨e, h⟩ => (by cases h), fun h => absurd hw h⟩⟩
  · rw [hv]
    exact ⟨by simp, ⟨fun e => (by cases e), fun h => absurd h.1 hw⟩, ⟨fun _ => hw, fun _ => ⟨e, rfl⟩⟩⟩

-- a 2-of-3 multisignature that is accepted, and the same with one signature missing
example : (⟨1, 2, [⟨[1], some [1, 9]⟩, ⟨[2], none⟩, ⟨[3], some [3, 9]⟩]⟩ : Msig).verify id toyScheme [9]
      (specAddrString 1 2 [[1], [2], [3]]) = .ok true ∧
    (⟨1, 2, [⟨[1], some [1, 9]⟩, ⟨[2], none⟩, ⟨[3], none⟩]⟩ : Msig).verify id toyScheme [9]
      (specAddrString 1 2 [[1], [2], [3]]) = .err .invalidNumberOfSignatures := by
  decide +kernel

/-! ## C17: signing and assembling -/

/-- The partial multisignature made by `sk`. -/
def partialSig (S : Scheme) (msg : Bytes) (v t : UInt8) (pks : List Bytes) (sk : S.Sk) : Msig :=
  ⟨v, t, pks.map fun pk => ⟨pk, if S.pub sk = pk then some (S.sign sk msg) else none⟩⟩

theorem sign_ok (H : Bytes → Bytes) (S : Scheme) (addr msg : Bytes) (v t : UInt8) (pks : List Bytes)
    (sk : S.Sk) (haddr : fromPks H v t pks = .ok addr) (hmem : S.pub sk ∈ pks) :
    sign H S addr msg v t pks sk (S.pub sk) = .ok (partialSig S msg v t pks sk) := by
  have hv : v = 1 := by
    by_contra h
    rw [(C19_address_total H v t pks).2.1 h] at haddr; cases haddr
  rw [sign, if_neg (by simpa using hv), haddr, Res.ok_bind, if_neg (by simp), if_neg (by simpa using hmem)]
  rfl

theorem partial_keys (S : Scheme) (msg : Bytes) (v t : UInt8) (pks : List Bytes) (sk : S.Sk) :
    (partialSig S msg v t pks sk).subsigs.map Subsig.key = pks := by
  rw [partialSig, List.map_map]
  exact List.map_id' pks

theorem assembleCheck_ok (first : Msig) : ∀ (us : List Msig),
    (∀ u ∈ us, u.version = first.version ∧ u.threshold = first.threshold ∧
      u.subsigs.map Subsig.key = first.subsigs.map Subsig.key) → assembleCheck first us = .ok ()
  | [], _ => rfl
  | u :: us, h => by
    obtain ⟨h1, h2, h3⟩ := h u (by simp)
    have hlen : first.subsigs.length = u.subsigs.length := by
      have := congrArg List.length h3
      simpa using this.symm
    rw [assembleCheck, if_neg (by simp [h2]), if_neg (by simp [h1]), if_neg (by simpa using hlen),
      keysMatch_full _ _ hlen, if_pos h3.symm]
    exact assembleCheck_ok first us (fun w hw => h w (by simp [hw]))

/-- Count positions that are signed. -/
theorem filter_some_length : ∀ (out : List Subsig) (pks : List Bytes) (p : Bytes → Bool),
    out.map Subsig.key = pks → (∀ s ∈ out, s.sig.isSome = p s.key) →
    (out.filter fun s => s.sig.isSome).length = (pks.filter p).length
  | [], _, p, h, _ => by simp at h; subst h; rfl
  | s :: out, _, p, h, hs => by
    simp only [List.map_cons] at h
    subst h
    have ih := filter_some_length out _ p rfl (fun z hz => hs z (by simp [hz]))
    have h1 := hs s (by simp)
    rw [List.filter_cons, List.filter_cons, h1]
    split
    · simp [ih]
    · exact ih

/-- C17: if the key holders `signers` (two or more calls, in any order, possibly the same one twice) sign
for the same key list and together they hold at least `threshold` of its positions, then every `sign`
succeeds, `assemble` succeeds, and the result verifies for the derived address. -/
theorem C17_assemble_verifies (H : Bytes → Bytes) (S : Scheme)
    (hS : ∀ sk m, S.verify (S.pub sk) m (S.sign sk m) = true)
    (msg : Bytes) (v t : UInt8) (pks : List Bytes) (addr : Bytes)
    (haddr : fromPks H v t pks = .ok addr) (hsize : pks.length ≤ 255)
    (signers : List S.Sk) (hfirst : pks[0]? = some (1 :: List.replicate 31 0) → ∃ sk ∈ signers, S.pub sk = 1 :: List.replicate 31 0)
    (htwo : 2 ≤ signers.length) (hmem : ∀ sk ∈ signers, S.pub sk ∈ pks)
    (henough : t.toNat ≤ (pks.filter fun pk => decide (∃ sk ∈ signers, S.pub sk = pk)).length) :
    ∃ us m, List.Forall₂ (fun sk u => sign H S addr msg v t pks sk (S.pub sk) = .ok u) signers us ∧
      assemble us = .ok m ∧ m.verify H S msg addr = .ok true := by
  refine ⟨signers.map (partialSig S msg v t pks), ?_⟩
  have hforall : List.Forall₂ (fun sk u => sign H S addr msg v t pks sk (S.pub sk) = .ok u) signers
      (signers.map (partialSig S msg v t pks)) := by
    clear htwo henough hfirst
    induction signers with
    | nil => exact .nil
    | cons sk rest ih =>
      exact .cons (sign_ok H S addr msg v t pks sk haddr (hmem sk (by simp)))
        (ih (fun x hx => hmem x (by simp [hx])))
  have hvalid : v = 1 ∧ 1 ≤ t.toNat ∧ addr = H (specAddrString v t pks) := by
    have htot := C19_address_total H v t pks
    by_cases h1 : v = 1
    · by_cases h2 : t.toNat = 0 ∨ pks.length < t.toNat
      · rw [htot.2.2 h1 h2] at haddr; cases haddr
      · rw [htot.1 ⟨h1, by omega, by omega⟩] at haddr
        injection haddr with haddr
        exact ⟨h1, by omega, haddr.symm⟩
    · rw [htot.2.1 h1] at haddr; cases haddr
  obtain ⟨s1, s2, rest, hsl⟩ : ∃ s1 s2 rest, signers = s1 :: s2 :: rest := by
    match signers, htwo with
    | s1 :: s2 :: rest, _ => exact ⟨s1, s2, rest, rfl⟩
  have hus : ∀ u ∈ signers.map (partialSig S msg v t pks), u.version = v ∧ u.threshold = t ∧
      u.subsigs.map Subsig.key = pks := by
    intro u hu
    obtain ⟨sk, _, rfl⟩ := List.mem_map.1 hu
    exact ⟨rfl, rfl, partial_keys S msg v t pks sk⟩
  obtain ⟨out, ho, hk, hval, hsome⟩ := overlayAll_ok (fun k sg => S.verify k msg sg = true) pks
    (signers.map (partialSig S msg v t pks)) (pks.map fun pk => (⟨pk, none⟩ : Subsig))
    (fun u hu => (hus u hu).2.2) (by rw [List.map_map]; exact List.map_id' pks) (by
      intro u hu s hs sg hsg
      obtain ⟨sk, _, rfl⟩ := List.mem_map.1 hu
      simp only [partialSig, List.mem_map] at hs
      obtain ⟨pk, _, rfl⟩ := hs
      simp only at hsg ⊢
      split at hsg
      · rename_i he
        injection hsg with hsg
        rw [← hsg, ← he]; exact hS sk msg
      · cases hsg) (by
      intro s hs sg hsg
      obtain ⟨pk, _, rfl⟩ := List.mem_map.1 hs
      cases hsg)
  have hass : assemble (signers.map (partialSig S msg v t pks)) = .ok ⟨v, t, out⟩ := by
    rw [hsl] at ho ⊢
    simp only [List.map_cons, assemble]
    rw [assembleCheck_ok _ _ (by
      intro u hu
      have : u ∈ signers.map (partialSig S msg v t pks) := by
        rw [hsl]; simp only [List.map_cons]; exact List.mem_cons_of_mem _ hu
      obtain ⟨a, b, c⟩ := hus u this
      exact ⟨a, b, by rw [c, partial_keys]⟩), Res.ok_bind]
    have e1 : ((partialSig S msg v t pks s1).subsigs.map fun s => (⟨s.key, none⟩ : Subsig)) =
        pks.map fun pk => ⟨pk, none⟩ := by
      rw [partialSig, List.map_map]; rfl
    rw [e1]
    simp only [List.map_cons] at ho
    rw [ho]; rfl
  refine ⟨_, hforall, hass, ?_⟩
  rw [C16_accept_iff]
  have hget : ∀ (i : Nat) (s : Subsig), out[i]? = some s →
      (s.sig.isSome = true ↔ ∃ sk ∈ signers, S.pub sk = s.key) := by
    intro i s hs
    have hpk : pks[i]? = some s.key := by rw [← hk, List.getElem?_map, hs]; rfl
    rw [hsome i s hs]
    constructor
    · rintro (⟨m, hm, h⟩ | ⟨u, hu, m, hm, h⟩)
      · rw [List.getElem?_map, hpk] at hm
        injection hm with hm; subst hm; cases h
      · obtain ⟨sk, hsk, rfl⟩ := List.mem_map.1 hu
        simp only [partialSig, List.getElem?_map, hpk, Option.map_some] at hm
        injection hm with hm; subst hm
        simp only at h
        split at h
        · rename_i he; exact ⟨sk, hsk, he⟩
        · cases h
    · rintro ⟨sk, hsk, he⟩
      refine Or.inr ⟨_, List.mem_map.2 ⟨sk, hsk, rfl⟩, ⟨s.key, some (S.sign sk msg)⟩, ?_, rfl⟩
      simp only [partialSig, List.getElem?_map, hpk, Option.map_some]
      rw [if_pos he]
  refine ⟨⟨hvalid.1, hvalid.2.1, ?_, ?_, ?_, ?_⟩, hval⟩
  · simp only
    rw [filter_some_length out pks (fun pk => decide (∃ sk ∈ signers, S.pub sk = pk)) hk]
    · exact henough
    · intro s hs
      obtain ⟨i, hi⟩ := List.mem_iff_getElem?.1 hs
      rw [Bool.eq_iff_iff, hget i s hi]; simp
  · have := congrArg List.length hk
    simp at this; simp only; omega
  · simp only; rw [hk]; exact hvalid.2.2
  · simp only
    intro e
    obtain ⟨sk, hsk, he⟩ := hfirst (by rw [← hk, List.getElem?_map, e]; rfl)
    have := (hget 0 _ e).2 ⟨sk, hsk, he⟩
    cases this

/-- C17: a single partial multisignature verifies by itself when its holder has enough positions. -/
theorem C17_single_verifies (H : Bytes → Bytes) (S : Scheme)
    (hS : ∀ sk m, S.verify (S.pub sk) m (S.sign sk m) = true)
    (msg : Bytes) (v t : UInt8) (pks : List Bytes) (addr : Bytes)
    (haddr : fromPks H v t pks = .ok addr) (hsize : pks.length ≤ 255)
    (sk : S.Sk) (hfirst : pks[0]? = some (1 :: List.replicate 31 0) → S.pub sk = 1 :: List.replicate 31 0)
    (hmem : S.pub sk ∈ pks)
    (henough : t.toNat ≤ (pks.filter fun pk => decide (S.pub sk = pk)).length) :
    ∃ m, sign H S addr msg v t pks sk (S.pub sk) = .ok m ∧ m.verify H S msg addr = .ok true := by
  refine ⟨_, sign_ok H S addr msg v t pks sk haddr hmem, ?_⟩
  have hk := partial_keys S msg v t pks sk
  have htot := C19_address_total H v t pks
  have hvalid : v = 1 ∧ 1 ≤ t.toNat ∧ addr = H (specAddrString v t pks) := by
    by_cases h1 : v = 1
    · by_cases h2 : t.toNat = 0 ∨ pks.length < t.toNat
      · rw [htot.2.2 h1 h2] at haddr; cases haddr
      · rw [htot.1 ⟨h1, by omega, by omega⟩] at haddr
        injection haddr with haddr
        exact ⟨h1, by omega, haddr.symm⟩
    · rw [htot.2.1 h1] at haddr; cases haddr
  rw [C16_accept_iff]
  refine ⟨⟨hvalid.1, hvalid.2.1, ?_, ?_, ?_, ?_⟩, ?_⟩
  · rw [filter_some_length _ pks (fun pk => decide (S.pub sk = pk)) hk]
    · exact henough
    · intro s hs
      simp only [partialSig, List.mem_map] at hs
      obtain ⟨pk, _, rfl⟩ := hs
      simp only
      split <;> simp_all
  · have := congrArg List.length hk
    simp at this; omega
  · rw [hk]; exact hvalid.2.2
  · intro e
    have h0 : pks[0]? = some (1 :: List.replicate 31 0) := by rw [← hk, List.getElem?_map, e]; rfl
    simp only [partialSig, List.getElem?_map, h0, Option.map_some, hfirst h0, if_true] at e
    cases e
  · intro s hs sg hsg
    simp only [partialSig, List.mem_map] at hs
    obtain ⟨pk, _, rfl⟩ := hs
    simp only at hsg ⊢
    split at hsg
    · rename_i he
      injection hsg with hsg
      rw [← hsg, ← he]; exact hS sk msg
    · cases hsg

-- two of three key holders
example : ∃ us m, List.Forall₂ (fun sk u => sign id toyScheme (specAddrString 1 2 [[1], [2], [3]]) [9] 1 2
      [[1], [2], [3]] sk (toyScheme.pub sk) = .ok u) [([3] : Bytes), [1]] us ∧
    assemble us = .ok m ∧ m.verify id toyScheme [9] (specAddrString 1 2 [[1], [2], [3]]) = .ok true :=
  C17_assemble_verifies id toyScheme (by intro sk m; simp [toyScheme]) [9] 1 2 [[1], [2], [3]] _
    ((C19_address_total id 1 2 _).1 (by decide)) (by decide) [[3], [1]] (by decide) (by decide)
    (by
      intro (sk : Bytes) h
      rcases List.mem_cons.1 h with rfl | h
      · simp [toyScheme]
      · rcases List.mem_cons.1 h with rfl | h
        · simp [toyScheme]
        · cases h) (by decide +kernel)

/-! ## C18: merging -/

/-- The signature at a position, if any. -/
def sigAt (m : Msig) (i : Nat) : Option Bytes := (m.subsigs[i]?).bind Subsig.sig

/-- Same version, threshold and keys. -/
def SameShape (a b : Msig) : Prop :=
  a.threshold = b.threshold ∧ a.version = b.version ∧ a.subsigs.map Subsig.key = b.subsigs.map Subsig.key

theorem msig_ext {a b : Msig} (h : SameShape a b) (hs : ∀ i, sigAt a i = sigAt b i) : a = b := by
  obtain ⟨av, at', as⟩ := a
  obtain ⟨bv, bt, bs⟩ := b
  obtain ⟨h1, h2, h3⟩ := h
  simp only at h1 h2 h3
  subst h1; subst h2
  congr 1
  apply List.ext_getElem?
  intro i
  have hk : (as.map Subsig.key)[i]? = (bs.map Subsig.key)[i]? := by rw [h3]
  rw [List.getElem?_map, List.getElem?_map] at hk
  have hi := hs i
  simp only [sigAt] at hi
  cases ha : as[i]? with
  | none =>
    rw [ha] at hk
    cases hb : bs[i]? with
    | none => rfl
    | some y => rw [hb] at hk; cases hk
  | some x =>
    rw [ha] at hk hi
    cases hb : bs[i]? with
    | none => rw [hb] at hk; cases hk
    | some y =>
      rw [hb] at hk hi
      simp only [Option.map_some, Option.some.injEq] at hk
      simp only [Option.bind_some] at hi
      cases x; cases y
      simp only at hk hi
      rw [hk, hi]

/-- C18: what a merge is. It succeeds exactly when version, threshold and keys agree and no position
carries two different signatures; the result then has at each position the signature of either input.
A shape mismatch is some error, a conflicting position is `InvalidDuplicates`; it never panics. -/
theorem C18_merge_spec (a b : Msig) :
    (∀ m, a.merge b = .ok m ↔ SameShape a b ∧
      (∀ i x y, sigAt a i = some x → sigAt b i = some y → x = y) ∧
      SameShape m a ∧ ∀ i, sigAt m i = (sigAt a i).or (sigAt b i)) ∧
    a.merge b ≠ .panic ∧
    (SameShape a b → a.merge b = .err .invalidDuplicates ∨ ∃ m, a.merge b = .ok m) := by
  by_cases hsh : SameShape a b
  · have hmt := (matches_eq a b).2 hsh
    have hlen : b.subsigs.length = a.subsigs.length := by
      have := congrArg List.length hsh.2.2
      simpa using this.symm
    rw [Msig.merge, hmt, Res.ok_bind]
    rcases mergeLoop_eq b.subsigs a.subsigs 0 (by omega) with ⟨hag, he⟩ | ⟨⟨k, x, y, hx, hy, hna⟩, he⟩
    · rw [he]
      simp only [Res.ok_bind, Res.pure_eq, List.drop_zero]
      have hsig : ∀ i, sigAt ⟨a.version, a.threshold, List.zipWith comb a.subsigs b.subsigs⟩ i =
          (sigAt a i).or (sigAt b i) := by
        intro i
        simp only [sigAt, List.getElem?_zipWith]
        by_cases hi : i < a.subsigs.length
        · rw [List.getElem?_eq_getElem hi, List.getElem?_eq_getElem (by omega)]; rfl
        · rw [List.getElem?_eq_none (by omega), List.getElem?_eq_none (by omega)]; rfl
      have hshape : SameShape ⟨a.version, a.threshold, List.zipWith comb a.subsigs b.subsigs⟩ a := by
        refine ⟨rfl, rfl, ?_⟩
        simp only
        apply List.ext_getElem?
        intro i
        rw [List.getElem?_map, List.getElem?_zipWith, List.getElem?_map]
        by_cases hi : i < a.subsigs.length
        · rw [List.getElem?_eq_getElem hi, List.getElem?_eq_getElem (by omega)]; rfl
        · rw [List.getElem?_eq_none (by omega), List.getElem?_eq_none (by omega)]
      refine ⟨?_, by simp, fun _ => Or.inr ⟨_, rfl⟩⟩
      intro m
      constructor
      · intro h
        injection h with h
        subst h
        refine ⟨hsh, ?_, hshape, hsig⟩
        intro i x y hx hy
        simp only [sigAt, Option.bind_eq_some_iff] at hx hy
        obtain ⟨s, hs1, hs2⟩ := hx
        obtain ⟨o, ho1, ho2⟩ := hy
        exact hag i s o hs1 (by simpa using ho1) x y hs2 ho2
      · rintro ⟨_, _, h1, h2⟩
        congr 1
        apply msig_ext
        · exact ⟨hshape.1.trans h1.1.symm, hshape.2.1.trans h1.2.1.symm, hshape.2.2.trans h1.2.2.symm⟩
        · intro i; rw [hsig, h2]
    · rw [he]
      refine ⟨?_, by simp, fun _ => Or.inl rfl⟩
      intro m
      constructor
      · intro h; cases h
      · rintro ⟨_, hc, _⟩
        exfalso
        apply hna
        intro p q hp hq
        apply hc k p q
        · simp only [sigAt, hx, Option.bind_some, hp]
        · rw [Nat.zero_add] at hy
          simp only [sigAt, hy, Option.bind_some, hq]
  · have hnm : a.matches b a.subsigs.length ≠ .ok () := fun h => hsh ((matches_eq a b).1 h)
    have hnp := matches_no_panic a b
    rw [Msig.merge]
    cases hm : a.matches b a.subsigs.length with
    | ok u => exact absurd hm hnm
    | panic => exact absurd hm hnp
    | err e =>
      refine ⟨fun m => ⟨fun h => (by cases h), fun h => absurd h.1 hsh⟩, by simp, fun h => absurd h hsh⟩

/-- C18: a successful merge has a signature at a position exactly when an input does, and it comes from
an input; no input signature is dropped or replaced. -/
theorem C18_nothing_lost (a b m : Msig) (h : a.merge b = .ok m) (i : Nat) (sg : Bytes) :
    sigAt m i = some sg ↔ sigAt a i = some sg ∨ sigAt b i = some sg := by
  obtain ⟨_, hc, _, hs⟩ := ((C18_merge_spec a b).1 m).1 h
  rw [hs i]
  cases ha : sigAt a i with
  | none => simp
  | some x =>
    simp only [Option.some_or, Option.some.injEq]
    constructor
    · intro e; exact Or.inl e
    · rintro (e | e)
      · exact e
      · exact hc i x sg ha e

/-- C18: merging is commutative (also in whether it succeeds). -/
theorem C18_merge_comm (a b m : Msig) : a.merge b = .ok m ↔ b.merge a = .ok m := by
  have key : ∀ a b : Msig, a.merge b = .ok m → b.merge a = .ok m := by
    intro a b h
    obtain ⟨h1, h2, h3, h4⟩ := ((C18_merge_spec a b).1 m).1 h
    refine ((C18_merge_spec b a).1 m).2 ⟨⟨h1.1.symm, h1.2.1.symm, h1.2.2.symm⟩,
      fun i x y hx hy => (h2 i y x hy hx).symm,
      ⟨h3.1.trans h1.1, h3.2.1.trans h1.2.1, h3.2.2.trans h1.2.2⟩, ?_⟩
    intro i
    rw [h4 i]
    cases ha : sigAt a i with
    | none => cases sigAt b i <;> rfl
    | some x =>
      cases hb : sigAt b i with
      | none => rfl
      | some y => simp [h2 i x y ha hb]
  exact ⟨key a b, key b a⟩

/-- C18: merging with oneself changes nothing. -/
theorem C18_merge_idem (a : Msig) : a.merge a = .ok a :=
  ((C18_merge_spec a a).1 a).2 ⟨⟨rfl, rfl, rfl⟩, fun i x y hx hy => by rw [hx] at hy; injection hy,
    ⟨rfl, rfl, rfl⟩, fun i => by cases sigAt a i <;> rfl⟩

/-- C18: merging is associative where it succeeds. -/
theorem C18_merge_assoc (a b c ab m : Msig) (h1 : a.merge b = .ok ab) (h2 : ab.merge c = .ok m) :
    ∃ bc, b.merge c = .ok bc ∧ a.merge bc = .ok m := by
  obtain ⟨s1, n1, t1, g1⟩ := ((C18_merge_spec a b).1 ab).1 h1
  obtain ⟨s2, n2, t2, g2⟩ := ((C18_merge_spec ab c).1 m).1 h2
  have sbc : SameShape b c := ⟨(s1.1.symm.trans t1.1.symm).trans s2.1,
    (s1.2.1.symm.trans t1.2.1.symm).trans s2.2.1, (s1.2.2.symm.trans t1.2.2.symm).trans s2.2.2⟩
  have nbc : ∀ i x y, sigAt b i = some x → sigAt c i = some y → x = y := by
    intro i x y hx hy
    cases ha : sigAt a i with
    | none => exact n2 i x y (by rw [g1, ha, hx]; rfl) hy
    | some z =>
      have e1 := n1 i z x ha hx
      have e2 := n2 i z y (by rw [g1, ha]; rfl) hy
      rw [← e1, ← e2]
  rcases (C18_merge_spec b c).2.2 sbc with he | ⟨bc, hbc⟩
  · exfalso
    -- the pointwise union exists
    have := (C18_merge_spec b c).1 ⟨b.version, b.threshold, List.zipWith comb b.subsigs c.subsigs⟩
    have hlen : c.subsigs.length = b.subsigs.length := by
      have := congrArg List.length sbc.2.2
      simpa using this.symm
    have hm := (matches_eq b c).2 sbc
    rw [Msig.merge, hm, Res.ok_bind] at he
    rcases mergeLoop_eq c.subsigs b.subsigs 0 (by omega) with ⟨_, e⟩ | ⟨⟨k, x, y, hx, hy, hna⟩, e⟩
    · rw [e] at he; cases he
    · apply hna
      intro p q hp hq
      apply nbc k p q
      · simp only [sigAt, hx, Option.bind_some, hp]
      · rw [Nat.zero_add] at hy
        simp only [sigAt, hy, Option.bind_some, hq]
  · refine ⟨bc, hbc, ?_⟩
    obtain ⟨_, _, t3, g3⟩ := ((C18_merge_spec b c).1 bc).1 hbc
    refine ((C18_merge_spec a bc).1 m).2 ⟨⟨s1.1.trans t3.1.symm, s1.2.1.trans t3.2.1.symm,
      s1.2.2.trans t3.2.2.symm⟩, ?_, ⟨t2.1.trans t1.1, t2.2.1.trans t1.2.1, t2.2.2.trans t1.2.2⟩, ?_⟩
    · intro i x y hx hy
      rw [g3] at hy
      cases hb : sigAt b i with
      | some z =>
        rw [hb] at hy; simp only [Option.some_or, Option.some.injEq] at hy
        rw [← hy]; exact n1 i x z hx hb
      | none =>
        rw [hb] at hy; simp only [Option.none_or] at hy
        exact n2 i x y (by rw [g1, hx]; rfl) hy
    · intro i
      rw [g2, g1, g3]
      cases sigAt a i <;> cases sigAt b i <;> rfl

example : (⟨1, 2, [⟨[1], some [7]⟩, ⟨[2], none⟩, ⟨[3], some [8]⟩]⟩ : Msig).merge
      ⟨1, 2, [⟨[1], none⟩, ⟨[2], some [5]⟩, ⟨[3], some [8]⟩]⟩ =
      .ok ⟨1, 2, [⟨[1], some [7]⟩, ⟨[2], some [5]⟩, ⟨[3], some [8]⟩]⟩ ∧
    (⟨1, 2, [⟨[1], some [7]⟩]⟩ : Msig).merge ⟨1, 2, [⟨[1], some [6]⟩]⟩ = .err .invalidDuplicates := by
  decide

/-! ## C71: adding signatures in place -/

theorem checkAll_ok (m : Msig) : ∀ (us : List Msig), checkAll m m.subsigs.length us = .ok () ↔
    ∀ u ∈ us, SameShape m u
  | [] => by simp [checkAll]
  | u :: us => by
    rw [checkAll]
    cases hm : m.matches u m.subsigs.length with
    | ok x =>
      rw [Res.ok_bind, checkAll_ok m us]
      have := (matches_eq m u).1 hm
      constructor
      · intro h v hv
        rcases List.mem_cons.1 hv with rfl | hv
        · exact this
        · exact h v hv
      · intro h v hv; exact h v (by simp [hv])
    | err e =>
      simp only [Res.err_bind, reduceCtorEq, false_iff]
      intro h
      have := (matches_eq m u).2 (h u (by simp))
      rw [hm] at this; cases this
    | panic => exact absurd hm (matches_no_panic m u)

theorem checkAll_no_panic (m : Msig) : ∀ (us : List Msig), checkAll m m.subsigs.length us ≠ .panic
  | [] => by simp [checkAll]
  | u :: us => by
    rw [checkAll]
    cases hm : m.matches u m.subsigs.length with
    | ok x => rw [Res.ok_bind]; exact checkAll_no_panic m us
    | err e => simp
    | panic => exact absurd hm (matches_no_panic m u)

/-- The outer loop: keys stay, signatures stay or are taken from an input; success means nothing was lost. -/
theorem addAll_spec : ∀ (us : List Msig) (ss : List Subsig),
    (∀ u ∈ us, u.subsigs.map Subsig.key = ss.map Subsig.key) →
    (addAll us ss).1.map Subsig.key = ss.map Subsig.key ∧
    (∀ (i : Nat) (z : Subsig), (addAll us ss).1[i]? = some z → ∃ s, ss[i]? = some s ∧
      (z = s ∨ (s.sig = none ∧ ∃ u ∈ us, ∃ o, u.subsigs[i]? = some o ∧ o.sig.isSome = true ∧ z.sig = o.sig))) ∧
    (((addAll us ss).2 = .ok () ∧ ∀ u ∈ us, ∀ (i : Nat) (z o : Subsig), (addAll us ss).1[i]? = some z →
      u.subsigs[i]? = some o → o.sig.isSome = true → z.sig = o.sig) ∨
     (addAll us ss).2 = .err .invalidDuplicates)
  | [], ss, _ => ⟨rfl, fun i z h => ⟨z, h, Or.inl rfl⟩, Or.inl ⟨rfl, by simp⟩⟩
  | u :: us, ss, hk => by
    have hlen : u.subsigs.length = ss.length := by
      have := congrArg List.length (hk u (by simp))
      simpa using this
    have hk1 := addOne_keys u.subsigs ss 0
    have hg1 := addOne_get u.subsigs ss 0
    have hp1 := addOne_no_panic u.subsigs ss 0 (by omega)
    rw [addAll]
    generalize hone : addOne u.subsigs 0 ss = r at hk1 hg1 hp1
    obtain ⟨ss1, r1⟩ := r
    simp only at hk1 hg1 hp1
    rcases hp1 with ⟨hr, hp1⟩ | ⟨hr, _⟩
    · subst hr
      simp only
      obtain ⟨i1, i2, i3⟩ := addAll_spec us ss1 (fun v hv => by rw [hk v (by simp [hv]), hk1])
      refine ⟨i1.trans hk1, ?_, ?_⟩
      · intro i z hz
        obtain ⟨s, hs, hor⟩ := i2 i z hz
        obtain ⟨s0, hs0, hor0⟩ := hg1 i s hs
        refine ⟨s0, hs0, ?_⟩
        rcases hor with rfl | ⟨hn, v, hv, o, ho, hos, hzo⟩
        · rcases hor0 with rfl | ⟨hn0, o, ho, hos, he⟩
          · exact Or.inl rfl
          · rw [Nat.zero_add] at ho
            exact Or.inr ⟨hn0, u, by simp, o, ho, hos, by rw [he]⟩
        · rcases hor0 with rfl | ⟨hn0, o', ho', hos', he⟩
          · exact Or.inr ⟨hn, v, by simp [hv], o, ho, hos, hzo⟩
          · rw [he] at hn; simp only at hn; rw [hn] at hos'; cases hos'
      · rcases i3 with ⟨h1, h2⟩ | h1
        · refine Or.inl ⟨h1, ?_⟩
          intro v hv i z o hz ho hos
          rcases List.mem_cons.1 hv with rfl | hv
          · obtain ⟨s, hs, hor⟩ := i2 i z hz
            have hso := hp1 i s o hs (by rw [Nat.zero_add]; exact ho) hos
            rcases hor with rfl | ⟨hn, _⟩
            · exact hso
            · rw [hn] at hso; rw [← hso] at hos; cases hos
          · exact h2 v hv i z o hz ho hos
        · exact Or.inr h1
    · subst hr
      simp only
      refine ⟨hk1, ?_, Or.inr trivial⟩
      intro i z hz
      obtain ⟨s, hs, hor⟩ := hg1 i z hz
      refine ⟨s, hs, ?_⟩
      rcases hor with rfl | ⟨hn, o, ho, hos, he⟩
      · exact Or.inl rfl
      · rw [Nat.zero_add] at ho
        exact Or.inr ⟨hn, u, by simp, o, ho, hos, by rw [he]⟩

theorem addSigs_shape (m : Msig) (us : List Msig) :
    ((∃ e, (m.addSigs us).2 = .err e) ∧ (m.addSigs us).1 = m) ∨
    (us ≠ [] ∧ (∀ u ∈ us, SameShape m u) ∧
      m.addSigs us = ({ m with subsigs := (addAll us m.subsigs).1 }, (addAll us m.subsigs).2)) := by
  match us with
  | [] => exact Or.inl ⟨⟨_, rfl⟩, rfl⟩
  | u :: us =>
    by_cases hall : ∀ v ∈ u :: us, SameShape m v
    · have hlen : u.subsigs.length = m.subsigs.length := by
        have := congrArg List.length (hall u (by simp)).2.2
        simpa using this.symm
      refine Or.inr ⟨by simp, hall, ?_⟩
      rw [Msig.addSigs, hlen, (checkAll_ok m (u :: us)).2 hall]
    · left
      rw [Msig.addSigs]
      by_cases hlen : u.subsigs.length = m.subsigs.length
      · rw [hlen]
        have h1 : checkAll m m.subsigs.length (u :: us) ≠ .ok () := fun h => hall ((checkAll_ok m _).1 h)
        have h2 := checkAll_no_panic m (u :: us)
        cases hc : checkAll m m.subsigs.length (u :: us) with
        | ok x => exact absurd hc h1
        | panic => exact absurd hc h2
        | err e => exact ⟨⟨e, rfl⟩, rfl⟩
      · have : ∃ e, checkAll m u.subsigs.length (u :: us) = .err e := by
          rw [checkAll, Msig.matches]
          split
          · exact ⟨_, rfl⟩
          · split
            · exact ⟨_, rfl⟩
            · rw [if_pos (fun h => hlen h.symm)]; exact ⟨_, rfl⟩
        obtain ⟨e, he⟩ := this
        rw [he]
        exact ⟨⟨e, rfl⟩, rfl⟩

/-- C71: on success, a position carries a signature afterwards exactly if it did before or one of the
added multisignatures has one there, and it is that very signature. -/
theorem C71_add_sigs_success (m : Msig) (us : List Msig) (h : (m.addSigs us).2 = .ok ()) :
    us ≠ [] ∧ (∀ u ∈ us, SameShape m u) ∧ SameShape m (m.addSigs us).1 ∧
    ∀ i sg, sigAt (m.addSigs us).1 i = some sg ↔ ∃ u ∈ m :: us, sigAt u i = some sg := by
  rcases addSigs_shape m us with ⟨⟨e, he⟩, _⟩ | ⟨hne, hall, heq⟩
  · rw [he] at h; cases h
  · obtain ⟨a1, a2, a3⟩ := addAll_spec us m.subsigs (fun u hu => (hall u hu).2.2.symm)
    rw [heq] at h ⊢
    simp only at h ⊢
    refine ⟨hne, hall, ⟨rfl, rfl, a1.symm⟩, ?_⟩
    rcases a3 with ⟨_, a3⟩ | a3
    · intro i sg
      simp only [sigAt, Option.bind_eq_some_iff]
      constructor
      · rintro ⟨z, hz, hzs⟩
        obtain ⟨s, hs, hor⟩ := a2 i z hz
        rcases hor with rfl | ⟨_, u, hu, o, ho, _, hzo⟩
        · exact ⟨m, by simp, z, hs, hzs⟩
        · exact ⟨u, by simp [hu], o, ho, by rw [← hzo, hzs]⟩
      · rintro ⟨u, hu, o, ho, hos⟩
        have hi : i < (addAll us m.subsigs).1.length := by
          have e1 := congrArg List.length a1
          simp at e1
          rw [e1]
          have h3 := (List.getElem?_eq_some_iff.1 ho).1
          rcases List.mem_cons.1 hu with rfl | hu
          · exact h3
          · have := congrArg List.length (hall u hu).2.2
            simp at this; omega
        have hz := List.getElem?_eq_getElem hi
        generalize (addAll us m.subsigs).1[i] = z at hz
        refine ⟨z, hz, ?_⟩
        rcases List.mem_cons.1 hu with rfl | hu
        · obtain ⟨s, hs, hor⟩ := a2 i z hz
          rw [ho] at hs; injection hs with hs; subst hs
          rcases hor with rfl | ⟨hn, _⟩
          · exact hos
          · rw [hn] at hos; cases hos
        · rw [a3 u hu i z o hz ho (by rw [hos]; rfl), hos]
    · rw [a3] at h; cases h

/-- C71, what holds on failure: version, threshold, keys and existing signatures are never touched and
added signatures come from the inputs; no panic. Missing from the full claim: after an error the
multisignature need not be unchanged (see `C71_not_atomic`). -/
theorem C71_add_sigs_any_outcome_partial (m : Msig) (us : List Msig) :
    (m.addSigs us).2 ≠ .panic ∧ SameShape m (m.addSigs us).1 ∧
    (∀ i sg, sigAt m i = some sg → sigAt (m.addSigs us).1 i = some sg) ∧
    (∀ i sg, sigAt (m.addSigs us).1 i = some sg → ∃ u ∈ m :: us, sigAt u i = some sg) := by
  rcases addSigs_shape m us with ⟨⟨e, he⟩, hm⟩ | ⟨hne, hall, heq⟩
  · rw [he, hm]
    exact ⟨by simp, ⟨rfl, rfl, rfl⟩, fun i sg h => h, fun i sg h => ⟨m, by simp, h⟩⟩
  · obtain ⟨a1, a2, a3⟩ := addAll_spec us m.subsigs (fun u hu => (hall u hu).2.2.symm)
    rw [heq]
    refine ⟨?_, ⟨rfl, rfl, a1.symm⟩, ?_, ?_⟩
    · rcases a3 with ⟨h, _⟩ | h <;> simp [h]
    · intro i sg hsg
      simp only [sigAt, Option.bind_eq_some_iff] at hsg ⊢
      obtain ⟨s0, hs0, hs0s⟩ := hsg
      have hi : i < (addAll us m.subsigs).1.length := by
        have e1 := congrArg List.length a1
        simp at e1
        rw [e1]; exact (List.getElem?_eq_some_iff.1 hs0).1
      have hz := List.getElem?_eq_getElem hi
      generalize (addAll us m.subsigs).1[i] = z at hz
      refine ⟨z, hz, ?_⟩
      obtain ⟨s, hs, hor⟩ := a2 i z hz
      rw [hs0] at hs; injection hs with hs; subst hs
      rcases hor with rfl | ⟨hn, _⟩
      · exact hs0s
      · rw [hn] at hs0s; cases hs0s
    · intro i sg hsg
      simp only [sigAt, Option.bind_eq_some_iff] at hsg ⊢
      obtain ⟨z, hz, hzs⟩ := hsg
      obtain ⟨s, hs, hor⟩ := a2 i z hz
      rcases hor with rfl | ⟨_, u, hu, o, ho, _, hzo⟩
      · exact ⟨m, by simp, z, hs, hzs⟩
      · exact ⟨u, by simp [hu], o, ho, by rw [← hzo, hzs]⟩

/-- C71 is violated: a rejected `add_sigs` can leave some of the new signatures behind. -/
theorem C71_not_atomic : ∃ (m : Msig) (us : List Msig),
    (m.addSigs us).2 = .err .invalidDuplicates ∧ (m.addSigs us).1 ≠ m :=
  ⟨⟨1, 1, [⟨[1], none⟩, ⟨[2], some [7]⟩]⟩, [⟨1, 1, [⟨[1], some [5]⟩, ⟨[2], some [8]⟩]⟩], by decide, by decide⟩

example : (⟨1, 1, [⟨[1], none⟩, ⟨[2], some [7]⟩]⟩ : Msig).addSigs [⟨1, 1, [⟨[1], some [5]⟩, ⟨[2], some [7]⟩]⟩] =
    (⟨1, 1, [⟨[1], some [5]⟩, ⟨[2], some [7]⟩]⟩, .ok ()) := by decide

/-- A case of `C16_threshold`. -/
example : 2 ≤ ([⟨[1], some [1, 9]⟩, ⟨[2], none⟩, ⟨[3], some [3, 9]⟩].filter fun s : Subsig =>
    match s.sig with
    | some sg => toyScheme.verify s.key [9] sg
    | none => false).length :=
  (C16_threshold id toyScheme ⟨1, 2, [⟨[1], some [1, 9]⟩, ⟨[2], none⟩, ⟨[3], some [3, 9]⟩]⟩ [9]
    (specAddrString 1 2 [[1], [2], [3]]) (by decide +kernel)).2

/-- A case of `C18_nothing_lost`. -/
example (i : Nat) (sg : Bytes) : sigAt ⟨1, 2, [⟨[1], some [7]⟩, ⟨[2], some [5]⟩]⟩ i = some sg ↔
    sigAt ⟨1, 2, [⟨[1], some [7]⟩, ⟨[2], none⟩]⟩ i = some sg ∨ sigAt ⟨1, 2, [⟨[1], none⟩, ⟨[2], some [5]⟩]⟩ i = some sg :=
  C18_nothing_lost _ _ _ (by decide) i sg

/-- A case of `C71_add_sigs_success`. -/
example : SameShape ⟨1, 1, [⟨[1], none⟩, ⟨[2], some [7]⟩]⟩ ⟨1, 1, [⟨[1], some [5]⟩, ⟨[2], some [7]⟩]⟩ :=
  (C71_add_sigs_success ⟨1, 1, [⟨[1], none⟩, ⟨[2], some [7]⟩]⟩ [⟨1, 1, [⟨[1], some [5]⟩, ⟨[2], some [7]⟩]⟩] (by decide)).2.1 _
    (List.mem_singleton.2 rfl)

end Verif.Props
