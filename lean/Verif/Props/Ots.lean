import Verif.Model.Ots
import Verif.Props.Multisig
/-!
# Properties of the one-time signatures (C21, C22, C23)
-/

namespace Verif.Props
open Verif Verif.HashId Verif.Multisig Verif.Ots

/-- Identifiers are ordered by batch, then offset. -/
def IdLe (a b : Ident) : Prop := a.batch < b.batch ∨ (a.batch = b.batch ∧ a.offset ≤ b.offset)

/-- The state still has a key for this identifier. -/
def Signable {S : Scheme} (st : Secrets S) (id : Ident) : Prop :=
  (id.batch + 1 = st.firstBatch ∧ st.firstOffset ≤ id.offset ∧ id.offset < st.firstOffset + st.offsets.length) ∨
  (st.firstBatch ≤ id.batch ∧ id.batch < st.firstBatch + st.batches.length)

/-- All retained subkeys are certified for their place. -/
structure Certified {S : Scheme} (E : Enc) (st : Secrets S) : Prop where
  batches : ∀ (i : Nat) (k : Subkey S), st.batches[i]? = some k →
    S.verify st.verifier (batchRep E (S.pub k.sk) (st.firstBatch + i)) k.pkSig = true
  offsets : ∀ (j : Nat) (k : Subkey S), st.offsets[j]? = some k → 1 ≤ st.firstBatch →
    S.verify st.verifier (batchRep E st.offsetsPk2 (st.firstBatch - 1)) st.offsetsPk2Sig = true ∧
    S.verify st.offsetsPk2 (offsetRep E (S.pub k.sk) (st.firstBatch - 1) (st.firstOffset + j)) k.pkSig = true

theorem genLoop_spec (S : Scheme) (E : Enc) (master : S.Sk) (eph : Nat → S.Sk) (start : Nat) :
    ∀ (n i : Nat), start + i + n ≤ u64Lim → ∃ l, genLoop S E master eph start i n = .ok l ∧ l.length = n ∧
      ∀ (j : Nat) (k : Subkey S), l[j]? = some k → k.sk = eph (i + j) ∧
        k.pkSig = S.sign master (batchRep E (S.pub (eph (i + j))) (start + (i + j)))
  | 0, i, _ => ⟨[], rfl, rfl, by simp⟩
  | n + 1, i, h => by
    obtain ⟨l, h1, h2, h3⟩ := genLoop_spec S E master eph start n (i + 1) (by omega)
    refine ⟨_ :: l, by rw [genLoop, addU64, if_pos (by omega), Res.ok_bind, h1]; rfl, by simp [h2], ?_⟩
    intro j k hk
    cases j with
    | zero => simp at hk; subst hk; exact ⟨rfl, rfl⟩
    | succ j =>
      obtain ⟨g1, g2⟩ := h3 j k (by simpa using hk)
      rw [show i + (j + 1) = i + 1 + j by omega]
      exact ⟨g1, g2⟩

theorem expand_spec {S : Scheme} (E : Enc) (key : S.Sk) (batch : Nat) (fresh : Nat → S.Sk) :
    ∀ (n off : Nat), (expand E key batch fresh off n).length = n ∧
      ∀ (j : Nat) (k : Subkey S), (expand E key batch fresh off n)[j]? = some k →
        k.sk = fresh (off + j) ∧ k.pkSig = S.sign key (offsetRep E (S.pub (fresh (off + j))) batch (off + j))
  | 0, off => ⟨rfl, by simp [expand]⟩
  | n + 1, off => by
    obtain ⟨h1, h2⟩ := expand_spec E key batch fresh n (off + 1)
    refine ⟨by simp [expand, h1], ?_⟩
    intro j k hk
    rw [expand] at hk
    cases j with
    | zero => simp at hk; subst hk; exact ⟨rfl, rfl⟩
    | succ j =>
      obtain ⟨g1, g2⟩ := h2 j k (by simpa using hk)
      rw [show off + (j + 1) = off + 1 + j by omega]
      exact ⟨g1, g2⟩

/-- The outcomes of `delete_before`, one by one. -/
theorem deleteBefore_cases {S : Scheme} (E : Enc) (st : Secrets S) (cur : Ident) (n : Nat) (fresh : Nat → S.Sk)
    (hc : cur.batch + 1 < u64Lim) :
    (cur.batch + 1 = st.firstBatch ∧ cur.offset ≤ st.firstOffset ∧ deleteBefore E st cur n fresh = .ok st) ∨
    (cur.batch + 1 = st.firstBatch ∧ st.firstOffset < cur.offset ∧ deleteBefore E st cur n fresh = .ok
      { st with
        firstOffset := st.firstOffset + min (cur.offset - st.firstOffset) st.offsets.length
        offsets := st.offsets.drop (min (cur.offset - st.firstOffset) st.offsets.length) }) ∨
    (cur.batch + 1 < st.firstBatch ∧ deleteBefore E st cur n fresh = .ok st) ∨
    (st.firstBatch ≤ cur.batch ∧ st.batches = [] ∧ st.firstBatch < cur.batch ∧
      deleteBefore E st cur n fresh = .ok { st with offsets := [] }) ∨
    (st.firstBatch + st.batches.length ≤ cur.batch ∧ deleteBefore E st cur n fresh = .ok
      { st with offsets := [], firstBatch := cur.batch, batches := [] }) ∨
    (∃ k rest, st.firstBatch ≤ cur.batch ∧ cur.batch < st.firstBatch + st.batches.length ∧
      st.batches.drop (cur.batch - st.firstBatch) = k :: rest ∧
      deleteBefore E st cur n fresh = .ok
        { st with
          offsetsPk2 := S.pub k.sk
          offsetsPk2Sig := k.pkSig
          firstOffset := cur.offset
          offsets := expand E k.sk cur.batch fresh cur.offset (n - cur.offset)
          firstBatch := cur.batch + 1
          batches := rest }) := by
  rw [deleteBefore, addU64, if_pos hc, Res.ok_bind]
  by_cases h1 : cur.batch + 1 = st.firstBatch
  · rw [if_pos h1]
    by_cases h2 : cur.offset > st.firstOffset
    · rw [if_pos h2]; exact Or.inr (Or.inl ⟨h1, h2, rfl⟩)
    · rw [if_neg h2]; exact Or.inl ⟨h1, by omega, rfl⟩
  · rw [if_neg h1]
    by_cases h2 : cur.batch + 1 < st.firstBatch
    · rw [if_pos h2]; exact Or.inr (Or.inr (Or.inl ⟨h2, rfl⟩))
    · rw [if_neg h2]
      simp only
      by_cases h3 : cur.batch - st.firstBatch > st.batches.length
      · rw [if_pos h3]
        cases hb : st.batches with
        | nil =>
          rw [hb] at h3; simp at h3
          refine Or.inr (Or.inr (Or.inr (Or.inl ⟨by omega, rfl, by omega, ?_⟩)))
          simp
        | cons a t =>
          refine Or.inr (Or.inr (Or.inr (Or.inr (Or.inl ⟨by rw [← hb]; omega, ?_⟩))))
          simp
      · rw [if_neg h3]
        have hfb : st.firstBatch + (cur.batch - st.firstBatch) = cur.batch := by omega
        cases hd : st.batches.drop (cur.batch - st.firstBatch) with
        | nil =>
          have := congrArg List.length hd
          rw [List.length_drop, List.length_nil] at this
          refine Or.inr (Or.inr (Or.inr (Or.inr (Or.inl ⟨by omega, ?_⟩))))
          simp only [hfb]; rfl
        | cons k rest =>
          have := congrArg List.length hd
          rw [List.length_drop, List.length_cons] at this
          refine Or.inr (Or.inr (Or.inr (Or.inr (Or.inr ⟨k, rest, by omega, by omega, rfl, ?_⟩))))
          simp only [hfb]
          rw [addU64, if_pos hc]; rfl

theorem deleteBefore_signable {S : Scheme} (E : Enc) (st st' : Secrets S) (cur : Ident) (n : Nat)
    (fresh : Nat → S.Sk) (h : deleteBefore E st cur n fresh = .ok st') :
    cur.batch + 1 < u64Lim ∧ (∀ id, Signable st' id → Signable st id ∧ IdLe cur id) ∧
    (∀ id, id.offset < n → Signable st id → IdLe cur id → Signable st' id) := by
  have hc : cur.batch + 1 < u64Lim := by
    by_contra hc
    rw [deleteBefore, addU64, if_neg hc] at h; cases h
  refine ⟨hc, ?_⟩
  rcases deleteBefore_cases E st cur n fresh hc with ⟨a, b, e⟩ | ⟨a, b, e⟩ | ⟨a, e⟩ | ⟨a, b, c, e⟩ | ⟨a, e⟩ |
      ⟨k, rest, a, b, c, e⟩
  all_goals (rw [h] at e; injection e with e; subst e)
  · refine ⟨fun id hs => ⟨hs, ?_⟩, fun id _ hs _ => hs⟩
    rcases hs with ⟨h1, h2, h3⟩ | ⟨h1, h2⟩
    · exact Or.inr ⟨by omega, by omega⟩
    · exact Or.inl (by omega)
  · refine ⟨fun id hs => ?_, fun id _ hs hle => ?_⟩
    · rcases hs with ⟨h1, h2, h3⟩ | ⟨h1, h2⟩
      · simp only [List.length_drop] at h1 h2 h3
        exact ⟨Or.inl ⟨by omega, by omega, by omega⟩, Or.inr ⟨by omega, by omega⟩⟩
      · simp only at h1 h2
        exact ⟨Or.inr ⟨h1, h2⟩, Or.inl (by omega)⟩
    · rcases hs with ⟨h1, h2, h3⟩ | ⟨h1, h2⟩
      · refine Or.inl ⟨h1, ?_, ?_⟩
        · simp only
          rcases hle with h4 | ⟨_, h4⟩ <;> omega
        · simp only [List.length_drop]; omega
      · exact Or.inr ⟨h1, h2⟩
  · refine ⟨fun id hs => ⟨hs, ?_⟩, fun id _ hs _ => hs⟩
    rcases hs with ⟨h1, h2, h3⟩ | ⟨h1, h2⟩
    · exact Or.inl (by omega)
    · exact Or.inl (by omega)
  · refine ⟨fun id hs => ?_, fun id _ hs hle => ?_⟩
    · rcases hs with ⟨h1, h2, h3⟩ | ⟨h1, h2⟩
      · simp at h2 h3; omega
      · simp only [b, List.length_nil] at h1 h2; omega
    · rcases hs with ⟨h1, h2, h3⟩ | ⟨h1, h2⟩
      · rcases hle with h4 | ⟨h4, _⟩ <;> omega
      · rw [b] at h2; simp at h2; omega
  · refine ⟨fun id hs => ?_, fun id _ hs hle => ?_⟩
    · rcases hs with ⟨h1, h2, h3⟩ | ⟨h1, h2⟩
      · simp at h2 h3; omega
      · simp only [List.length_nil] at h1 h2; omega
    · rcases hs with ⟨h1, h2, h3⟩ | ⟨h1, h2⟩
      · rcases hle with h4 | ⟨h4, _⟩ <;> omega
      · rcases hle with h4 | ⟨h4, _⟩ <;> omega
  · have hlen := congrArg List.length c
    rw [List.length_drop, List.length_cons] at hlen
    have hex := (expand_spec E k.sk cur.batch fresh (n - cur.offset) cur.offset).1
    refine ⟨fun id hs => ?_, fun id hn hs hle => ?_⟩
    · rcases hs with ⟨h1, h2, h3⟩ | ⟨h1, h2⟩
      · simp only [hex] at h1 h2 h3
        exact ⟨Or.inr ⟨by omega, by omega⟩, Or.inr ⟨by omega, by omega⟩⟩
      · simp only at h1 h2
        exact ⟨Or.inr ⟨by omega, by omega⟩, Or.inl (by omega)⟩
    · rcases hle with h4 | ⟨h4, h5⟩
      · refine Or.inr ⟨?_, ?_⟩ <;> simp only
        · omega
        · rcases hs with ⟨h1, _⟩ | ⟨h1, h2⟩ <;> omega
      · refine Or.inl ⟨by simp only; omega, by simp only; omega, ?_⟩
        simp only [hex]; omega

theorem deleteBefore_certified {S : Scheme} (hS : ∀ sk m, S.verify (S.pub sk) m (S.sign sk m) = true) (E : Enc)
    (st st' : Secrets S) (cur : Ident) (n : Nat) (fresh : Nat → S.Sk)
    (h : deleteBefore E st cur n fresh = .ok st') (hcert : Certified E st) :
    Certified E st' ∧ st'.verifier = st.verifier := by
  have hc := (deleteBefore_signable E st st' cur n fresh h).1
  rcases deleteBefore_cases E st cur n fresh hc with ⟨a, b, e⟩ | ⟨a, b, e⟩ | ⟨a, e⟩ | ⟨a, b, c, e⟩ | ⟨a, e⟩ |
      ⟨k, rest, a, b, c, e⟩
  all_goals (rw [h] at e; injection e with e; subst e)
  · exact ⟨hcert, rfl⟩
  · refine ⟨⟨hcert.batches, ?_⟩, rfl⟩
    intro j k hk hpos
    simp only [List.getElem?_drop] at hk
    obtain ⟨h1, h2⟩ := hcert.offsets _ k hk hpos
    exact ⟨h1, by rw [← h2]; simp only; congr 2; omega⟩
  · exact ⟨hcert, rfl⟩
  · exact ⟨⟨hcert.batches, by intro j k hk; simp at hk⟩, rfl⟩
  · exact ⟨⟨by intro j k hk; simp at hk, by intro j k hk; simp at hk⟩, rfl⟩
  · have hget : ∀ (i : Nat), (k :: rest)[i]? = st.batches[cur.batch - st.firstBatch + i]? := by
      intro i; rw [← c, List.getElem?_drop]
    refine ⟨⟨?_, ?_⟩, rfl⟩
    · intro i k' hk'
      simp only at hk' ⊢
      have := hget (i + 1)
      rw [List.getElem?_cons_succ, hk'] at this
      have h1 := hcert.batches _ k' this.symm
      rw [← h1]; congr 2; omega
    · intro j k' hk' _
      simp only [Nat.add_sub_cancel] at hk' ⊢
      have := hget 0
      rw [List.getElem?_cons_zero] at this
      have h1 := hcert.batches _ k this.symm
      rw [show st.firstBatch + (cur.batch - st.firstBatch + 0) = cur.batch by omega] at h1
      refine ⟨h1, ?_⟩
      obtain ⟨g1, g2⟩ := (expand_spec E k.sk cur.batch fresh (n - cur.offset) cur.offset).2 j k' hk'
      rw [g1, g2]
      exact hS _ _

/-- One call of `delete_before` with the keys it draws. -/
structure Del (S : Scheme) where
  cur : Ident
  fresh : Nat → S.Sk

/-- A history of `delete_before` calls, all with the same number of keys per batch (the key dilution). -/
def runDels {S : Scheme} (E : Enc) (n : Nat) : Secrets S → List (Del S) → Res Unit (Secrets S)
  | st, [] => .ok st
  | st, d :: ds => do
    let st ← deleteBefore E st d.cur n d.fresh
    runDels E n st ds

theorem runDels_spec {S : Scheme} (hS : ∀ sk m, S.verify (S.pub sk) m (S.sign sk m) = true) (E : Enc) (n : Nat) :
    ∀ (ds : List (Del S)) (st st' : Secrets S), runDels E n st ds = .ok st' → Certified E st →
      Certified E st' ∧ st'.verifier = st.verifier ∧
      (∀ id, Signable st' id → Signable st id ∧ ∀ d ∈ ds, IdLe d.cur id) ∧
      (∀ id, id.offset < n → Signable st id → (∀ d ∈ ds, IdLe d.cur id) → Signable st' id)
  | [], st, st', h, hc => by
    injection h with h; subst h
    exact ⟨hc, rfl, fun id hs => ⟨hs, by simp⟩, fun id _ hs _ => hs⟩
  | d :: ds, st, st', h, hc => by
    rw [runDels] at h
    obtain ⟨st1, h1, h2⟩ := Res.bind_eq_ok.1 h
    obtain ⟨c1, v1⟩ := deleteBefore_certified hS E st st1 d.cur n d.fresh h1 hc
    obtain ⟨_, s1, s2⟩ := deleteBefore_signable E st st1 d.cur n d.fresh h1
    obtain ⟨c2, v2, t1, t2⟩ := runDels_spec hS E n ds st1 st' h2 c1
    refine ⟨c2, v2.trans v1, ?_, ?_⟩
    · intro id hs
      obtain ⟨a, b⟩ := t1 id hs
      obtain ⟨a', b'⟩ := s1 id a
      refine ⟨a', ?_⟩
      intro e he
      rcases List.mem_cons.1 he with rfl | he
      · exact b'
      · exact b e he
    · intro id hn hs hle
      exact t2 id hn (s2 id hn hs (hle d (by simp))) (fun e he => hle e (by simp [he]))

theorem generate_spec {S : Scheme} (hS : ∀ sk m, S.verify (S.pub sk) m (S.sign sk m) = true) (E : Enc)
    (master : S.Sk) (eph : Nat → S.Sk) (start num : Nat) (h : start + num ≤ u64Lim) :
    ∃ st, generate S E master eph start num = .ok st ∧ Certified E st ∧ st.verifier = S.pub master ∧
      ∀ id, Signable st id ↔ start ≤ id.batch ∧ id.batch < start + num := by
  obtain ⟨l, h1, h2, h3⟩ := genLoop_spec S E master eph start num 0 (by omega)
  refine ⟨_, by rw [generate, h1]; rfl, ⟨?_, ?_⟩, rfl, ?_⟩
  · intro i k hk
    obtain ⟨g1, g2⟩ := h3 i k hk
    simp only
    rw [g1, g2, Nat.zero_add]
    exact hS _ _
  · intro j k hk; simp at hk
  · intro id
    simp only [Signable, h2, List.length_nil, Nat.zero_le, true_and, Nat.add_zero, Nat.not_lt_zero, and_false,
      false_or]

/-- The empty signature, byte by byte: zeros, with the compressed identity point for the keys. -/
def blankOTS : OTS :=
  ⟨List.replicate 64 0, 1 :: List.replicate 31 0, 1 :: List.replicate 31 0, List.replicate 64 0, List.replicate 64 0⟩

/-- What `sign` does on a state with certified subkeys. -/
theorem sign_spec {S : Scheme} (hS : ∀ sk m, S.verify (S.pub sk) m (S.sign sk m) = true) (E : Enc)
    (st : Secrets S) (hcert : Certified E st) (id : Ident) (msgRep : Bytes) (fresh : S.Sk)
    (hb : id.batch + 1 < u64Lim) :
    (Signable st id → ∃ o, sign E st id msgRep fresh = .ok o ∧ o.verify S E id msgRep st.verifier = true) ∧
    (¬ Signable st id → (id.offset + 1 < u64Lim ∨ id.batch + 1 ≠ st.firstBatch) →
      sign E st id msgRep fresh = .ok blankOTS) := by
  have hcond1 : (id.batch + 1 = st.firstBatch ∧ id.offset ≥ st.firstOffset ∧
      id.offset - st.firstOffset < st.offsets.length) ↔
      (id.batch + 1 = st.firstBatch ∧ st.firstOffset ≤ id.offset ∧
        id.offset < st.firstOffset + st.offsets.length) := by omega
  have hcond2 : (id.batch ≥ st.firstBatch ∧ id.batch - st.firstBatch < st.batches.length) ↔
      (st.firstBatch ≤ id.batch ∧ id.batch < st.firstBatch + st.batches.length) := by omega
  rw [Ots.sign, addU64, if_pos hb, Res.ok_bind]
  constructor
  · intro hs
    by_cases h1 : id.batch + 1 = st.firstBatch ∧ id.offset ≥ st.firstOffset ∧
      id.offset - st.firstOffset < st.offsets.length
    · rw [if_pos h1]
      have hg := List.getElem?_eq_getElem h1.2.2
      generalize st.offsets[id.offset - st.firstOffset]'(h1.2.2) = k at hg
      rw [hg, Res.ofOption_some, Res.ok_bind]
      refine ⟨_, rfl, ?_⟩
      obtain ⟨c1, c2⟩ := hcert.offsets _ k hg (by omega)
      have e1 : st.firstBatch - 1 = id.batch := by omega
      have e2 : st.firstOffset + (id.offset - st.firstOffset) = id.offset := by omega
      rw [e1] at c1 c2
      rw [e2] at c2
      simp only [OTS.verify, c1, c2, hS, Bool.and_self]
    · rw [if_neg h1]
      have h2 : id.batch ≥ st.firstBatch ∧ id.batch - st.firstBatch < st.batches.length := by
        rcases hs with hs | hs
        · exact absurd (hcond1.2 hs) h1
        · exact hcond2.2 hs
      rw [if_pos h2]
      have hg := List.getElem?_eq_getElem h2.2
      generalize st.batches[id.batch - st.firstBatch]'(h2.2) = k at hg
      rw [hg, Res.ofOption_some, Res.ok_bind]
      refine ⟨_, rfl, ?_⟩
      have c1 := hcert.batches _ k hg
      rw [show st.firstBatch + (id.batch - st.firstBatch) = id.batch by omega] at c1
      simp only [OTS.verify, c1, hS, Bool.and_self]
  · intro hs ho
    rw [if_neg (fun h1 => hs (Or.inl (hcond1.1 h1))), if_neg (fun h2 => hs (Or.inr (hcond2.1 h2)))]
    by_cases h3 : st.firstBatch = id.batch + 1
    · rw [if_pos h3]
      rcases ho with ho | ho
      · rw [addU64, if_pos ho]; rfl
      · exact absurd h3.symm ho
    · rw [if_neg h3]; rfl

/-- C21: secrets generated for batches `start .. start+num`, after any history of deletions, sign verifiably
for every identifier in range (batch in range, offset below the keys per batch) that is not below a
deleted identifier. -/
theorem C21_sign_verifies {S : Scheme} (hS : ∀ sk m, S.verify (S.pub sk) m (S.sign sk m) = true) (E : Enc)
    (master : S.Sk) (eph : Nat → S.Sk) (start num : Nat) (hr : start + num < u64Lim) (n : Nat)
    (ds : List (Del S)) (st : Secrets S)
    (hrun : (generate S E master eph start num >>= fun st => runDels E n st ds) = .ok st)
    (id : Ident) (hin : start ≤ id.batch ∧ id.batch < start + num) (ho : id.offset < n)
    (hdel : ∀ d ∈ ds, IdLe d.cur id) (msgRep : Bytes) (fresh : S.Sk) :
    ∃ o, sign E st id msgRep fresh = .ok o ∧ o.verify S E id msgRep (S.pub master) = true := by
  obtain ⟨st0, g1, g2, g3, g4⟩ := generate_spec hS E master eph start num (by omega)
  rw [g1, Res.ok_bind] at hrun
  obtain ⟨r1, r2, _, r4⟩ := runDels_spec hS E n ds st0 st hrun g2
  have := (sign_spec hS E st r1 id msgRep fresh (by omega)).1 (r4 id ho ((g4 id).2 hin) hdel)
  rw [r2, g3] at this
  exact this

/-- C21: generating and deleting never fail below the last 64-bit batch number. -/
theorem C21_total {S : Scheme} (E : Enc) (master : S.Sk) (eph : Nat → S.Sk) (start num : Nat)
    (hr : start + num ≤ u64Lim) (n : Nat) (ds : List (Del S)) (hds : ∀ d ∈ ds, d.cur.batch + 1 < u64Lim) :
    ∃ st, (generate S E master eph start num >>= fun st => runDels E n st ds) = .ok st := by
  obtain ⟨l, h1, _⟩ := genLoop_spec S E master eph start num 0 (by omega)
  rw [generate, h1]
  simp only [Res.ok_bind, Res.pure_eq]
  generalize (⟨S.pub master, start, l, 0, [], defaultPk, zeroSig⟩ : Secrets S) = st
  induction ds generalizing st with
  | nil => exact ⟨st, rfl⟩
  | cons d ds ih =>
    rw [runDels]
    have : ∃ st', deleteBefore E st d.cur n d.fresh = .ok st' := by
      rcases deleteBefore_cases E st d.cur n d.fresh (hds d (by simp)) with ⟨_, _, e⟩ | ⟨_, _, e⟩ | ⟨_, e⟩ |
        ⟨_, _, _, e⟩ | ⟨_, e⟩ | ⟨_, _, _, _, _, e⟩ <;> exact ⟨_, e⟩
    obtain ⟨st', he⟩ := this
    rw [he, Res.ok_bind]
    exact ih (fun e he => hds e (by simp [he])) st'

/-- C22: once an identifier above `id` has been deleted, signing for `id` gives the empty signature,
whatever deletions came before and come after. -/
theorem C22_forward_secure {S : Scheme} (hS : ∀ sk m, S.verify (S.pub sk) m (S.sign sk m) = true) (E : Enc)
    (master : S.Sk) (eph : Nat → S.Sk) (start num : Nat) (hr : start + num ≤ u64Lim) (n : Nat)
    (ds : List (Del S)) (st : Secrets S)
    (hrun : (generate S E master eph start num >>= fun st => runDels E n st ds) = .ok st)
    (id : Ident) (d : Del S) (hd : d ∈ ds) (hlow : ¬ IdLe d.cur id)
    (hb : id.batch + 1 < u64Lim) (ho : id.offset + 1 < u64Lim) (msgRep : Bytes) (fresh : S.Sk) :
    sign E st id msgRep fresh = .ok blankOTS := by
  obtain ⟨st0, g1, g2, _, _⟩ := generate_spec hS E master eph start num hr
  rw [g1, Res.ok_bind] at hrun
  obtain ⟨r1, _, r3, _⟩ := runDels_spec hS E n ds st0 st hrun g2
  exact (sign_spec hS E st r1 id msgRep fresh hb).2 (fun h => hlow ((r3 id h).2 d hd)) (Or.inl ho)

/-- C22: what is retained. After `delete_before(cur)` every retained batch key is for a batch after
`cur.batch` (or the call was for an already expanded or earlier batch, and then too), every retained
offset key is for an identifier not below `cur`, retained batch keys were already there for the same
batch, and retained offset keys were already there for the same identifier or are freshly drawn. -/
theorem C22_retained_keys {S : Scheme} (E : Enc) (st st' : Secrets S) (cur : Ident) (n : Nat)
    (fresh : Nat → S.Sk) (h : deleteBefore E st cur n fresh = .ok st') :
    (∀ (i : Nat) (k : Subkey S), st'.batches[i]? = some k → cur.batch < st'.firstBatch + i ∧
      ∃ i0, st.batches[i0]? = some k ∧ st.firstBatch + i0 = st'.firstBatch + i) ∧
    (∀ (j : Nat) (k : Subkey S), st'.offsets[j]? = some k →
      (cur.batch + 1 < st'.firstBatch ∨
        (cur.batch + 1 = st'.firstBatch ∧ cur.offset ≤ st'.firstOffset + j)) ∧
      ((∃ j0, st.offsets[j0]? = some k ∧ st.firstBatch = st'.firstBatch ∧
        st.firstOffset + j0 = st'.firstOffset + j) ∨ k.sk = fresh (st'.firstOffset + j))) := by
  have hc := (deleteBefore_signable E st st' cur n fresh h).1
  rcases deleteBefore_cases E st cur n fresh hc with ⟨a, b, e⟩ | ⟨a, b, e⟩ | ⟨a, e⟩ | ⟨a, b, c, e⟩ | ⟨a, e⟩ |
      ⟨k, rest, a, b, c, e⟩
  all_goals (rw [h] at e; injection e with e; subst e)
  · exact ⟨fun i k hk => ⟨by omega, i, hk, rfl⟩, fun j k hk => ⟨Or.inr ⟨a, by omega⟩, Or.inl ⟨j, hk, rfl, rfl⟩⟩⟩
  · refine ⟨fun i k hk => ⟨by simp only; omega, i, hk, rfl⟩, fun j k hk => ?_⟩
    simp only [List.getElem?_drop] at hk ⊢
    have hlt := (List.getElem?_eq_some_iff.1 hk).1
    exact ⟨Or.inr ⟨a, by omega⟩, Or.inl ⟨_, hk, trivial, by omega⟩⟩
  · exact ⟨fun i k hk => ⟨by omega, i, hk, rfl⟩, fun j k hk => ⟨Or.inl a, Or.inl ⟨j, hk, rfl, rfl⟩⟩⟩
  · exact ⟨fun i k hk => by simp [b] at hk, fun j k hk => by simp at hk⟩
  · exact ⟨fun i k hk => by simp at hk, fun j k hk => by simp at hk⟩
  · refine ⟨fun i k' hk' => ?_, fun j k' hk' => ?_⟩
    · simp only at hk' ⊢
      refine ⟨by omega, cur.batch - st.firstBatch + (i + 1), ?_, by omega⟩
      rw [← List.getElem?_drop, c, List.getElem?_cons_succ, hk']
    · simp only at hk' ⊢
      obtain ⟨g1, _⟩ := (expand_spec E k.sk cur.batch fresh (n - cur.offset) cur.offset).2 j k' hk'
      exact ⟨Or.inr ⟨trivial, by omega⟩, Or.inr g1⟩

/-- C23: `delete_before(cur)` keeps the ability to sign verifiably for identifiers at or after `cur`
(with an offset below the number of keys per batch) that were signable before. -/
theorem C23_future_kept {S : Scheme} (hS : ∀ sk m, S.verify (S.pub sk) m (S.sign sk m) = true) (E : Enc)
    (master : S.Sk) (eph : Nat → S.Sk) (start num : Nat) (hr : start + num ≤ u64Lim) (n : Nat)
    (ds : List (Del S)) (d : Del S) (st st' : Secrets S)
    (hrun : (generate S E master eph start num >>= fun st => runDels E n st ds) = .ok st)
    (hdel : deleteBefore E st d.cur n d.fresh = .ok st')
    (id : Ident) (hb : id.batch + 1 < u64Lim) (hle : IdLe d.cur id) (ho : id.offset < n) (ho64 : n < u64Lim)
    (msgRep : Bytes) (fresh : S.Sk)
    (hbefore : ∃ o, sign E st id msgRep fresh = .ok o ∧ o ≠ blankOTS) (fresh' : S.Sk) :
    ∃ o, sign E st' id msgRep fresh' = .ok o ∧ o.verify S E id msgRep (S.pub master) = true := by
  obtain ⟨st0, g1, g2, g3, _⟩ := generate_spec hS E master eph start num hr
  rw [g1, Res.ok_bind] at hrun
  obtain ⟨r1, r2, _, _⟩ := runDels_spec hS E n ds st0 st hrun g2
  obtain ⟨c1, c2⟩ := deleteBefore_certified hS E st st' d.cur n d.fresh hdel r1
  have hs : Signable st id := by
    by_contra hs
    obtain ⟨o, h1, h2⟩ := hbefore
    rw [(sign_spec hS E st r1 id msgRep fresh hb).2 hs (Or.inl (by omega))] at h1
    injection h1 with h1
    exact h2 h1.symm
  have := (sign_spec hS E st' c1 id msgRep fresh' hb).1
    ((deleteBefore_signable E st st' d.cur n d.fresh hdel).2.2 id ho hs hle)
  rw [c2, r2, g3] at this
  exact this

/-- C23: offsets of `n` or more in the batch being expanded are given up. -/
theorem C23_beyond_given_up {S : Scheme} (E : Enc) (st st' : Secrets S) (cur id : Ident) (n : Nat)
    (fresh : Nat → S.Sk) (h : deleteBefore E st cur n fresh = .ok st')
    (h1 : st.firstBatch ≤ cur.batch) (hid : id.batch = cur.batch) (ho : n ≤ id.offset) (hle : cur.offset ≤ n) :
    ¬ Signable st' id := by
  have hc := (deleteBefore_signable E st st' cur n fresh h).1
  rcases deleteBefore_cases E st cur n fresh hc with ⟨a, b, e⟩ | ⟨a, b, e⟩ | ⟨a, e⟩ | ⟨a, b, c, e⟩ | ⟨a, e⟩ |
      ⟨k, rest, a, b, c, e⟩
  all_goals (rw [h] at e; injection e with e; subst e)
  · omega
  · omega
  · omega
  · rintro (⟨_, g2, g3⟩ | ⟨g1, g2⟩)
    · simp at g2 g3; omega
    · simp only [b, List.length_nil] at g1 g2; omega
  · rintro (⟨_, g2, g3⟩ | ⟨g1, g2⟩)
    · simp at g2 g3; omega
    · simp only [List.length_nil] at g1 g2; omega
  · rintro (⟨_, g2, g3⟩ | ⟨g1, g2⟩)
    · simp only [(expand_spec E k.sk cur.batch fresh (n - cur.offset) cur.offset).1] at g2 g3; omega
    · simp only at g1; omega

/-- C21-C23 together: after any history the identifiers with a verifiable signature are exactly those in
range and not below a deletion. -/
theorem C21_exact {S : Scheme} (hS : ∀ sk m, S.verify (S.pub sk) m (S.sign sk m) = true) (E : Enc)
    (master : S.Sk) (eph : Nat → S.Sk) (start num : Nat) (hr : start + num < u64Lim) (n : Nat)
    (ds : List (Del S)) (st : Secrets S)
    (hrun : (generate S E master eph start num >>= fun st => runDels E n st ds) = .ok st)
    (hempty : ∀ id msg, blankOTS.verify S E id msg (S.pub master) = false)
    (id : Ident) (hb : id.batch + 1 < u64Lim) (ho : id.offset < n) (hn : n < u64Lim) (msgRep : Bytes)
    (fresh : S.Sk) :
    ((∃ o, sign E st id msgRep fresh = .ok o ∧ o.verify S E id msgRep (S.pub master) = true) ↔
      (start ≤ id.batch ∧ id.batch < start + num) ∧ ∀ d ∈ ds, IdLe d.cur id) := by
  constructor
  · rintro ⟨o, h1, h2⟩
    obtain ⟨st0, g1, g2, g3, g4⟩ := generate_spec hS E master eph start num (by omega)
    rw [g1, Res.ok_bind] at hrun
    obtain ⟨r1, r2, r3, _⟩ := runDels_spec hS E n ds st0 st hrun g2
    have hs : Signable st id := by
      by_contra hs
      rw [(sign_spec hS E st r1 id msgRep fresh hb).2 hs (Or.inl (by omega))] at h1
      injection h1 with h1
      rw [← h1, hempty] at h2; cases h2
    obtain ⟨a, b⟩ := r3 id hs
    exact ⟨(g4 id).1 a, b⟩
  · rintro ⟨h1, h2⟩
    exact C21_sign_verifies hS E master eph start num hr n ds st hrun id h1 ho h2 msgRep fresh

/-- C21: a snapshot is an equal state. -/
theorem C21_snapshot {S : Scheme} (st : Secrets S) : snapshot st = st := rfl

/-- Example encoding of the subkey identifiers. -/
def toyOtsEnc : Enc :=
  ⟨fun k b => k ++ [UInt8.ofNat b], fun k b o => k ++ [UInt8.ofNat b, UInt8.ofNat o]⟩

-- three batches of four keys, after deleting up to (1, 2): (1, 2) and (2, 0) sign, (1, 1) does not
example : ∃ st : Secrets toyScheme,
    (generate toyScheme toyOtsEnc ([1] : Bytes) (fun i => ([UInt8.ofNat i] : Bytes)) 0 3 >>= fun st => runDels toyOtsEnc 4 st
        [⟨⟨1, 2⟩, fun i => ([UInt8.ofNat i] : Bytes)⟩]) = .ok st ∧
    st.firstBatch = 2 ∧ st.firstOffset = 2 ∧ st.offsets.length = 2 ∧ st.batches.length = 1 :=
  ⟨_, rfl, rfl, rfl, rfl, rfl⟩

example : (∀ sk m, toyScheme.verify (toyScheme.pub sk) m (toyScheme.sign sk m) = true) ∧
    IdLe ⟨1, 2⟩ ⟨1, 2⟩ ∧ IdLe ⟨1, 2⟩ ⟨2, 0⟩ ∧ ¬ IdLe ⟨1, 2⟩ ⟨1, 1⟩ := by
  refine ⟨?_, ?_, ?_, ?_⟩
  · intro sk m; simp [toyScheme]
  all_goals simp [IdLe]

/-- The keys for batches 0 to 2, without those before batch 1, offset 2. -/
theorem toyOtsRun : ∃ st : Secrets toyScheme,
    (generate toyScheme toyOtsEnc ([1] : Bytes) (fun i => ([UInt8.ofNat i] : Bytes)) 0 3 >>= fun st => runDels toyOtsEnc 4 st
        [⟨⟨1, 2⟩, fun i => ([UInt8.ofNat i] : Bytes)⟩]) = .ok st := ⟨_, rfl⟩

/-- A case of `C21_total`, `C21_sign_verifies`, `C22_forward_secure` and `C23_future_kept`. -/
example (msg : Bytes) : ∃ st : Secrets toyScheme,
    (∃ o, sign toyOtsEnc st ⟨2, 3⟩ msg ([5] : Bytes) = .ok o ∧ o.verify toyScheme toyOtsEnc ⟨2, 3⟩ msg [1] = true) ∧
    sign toyOtsEnc st ⟨1, 1⟩ msg ([5] : Bytes) = .ok blankOTS ∧
    ∃ st', deleteBefore toyOtsEnc st ⟨2, 1⟩ 4 (fun i => ([UInt8.ofNat i] : Bytes)) = .ok st' ∧
      ((∃ o, sign toyOtsEnc st ⟨2, 3⟩ msg ([5] : Bytes) = .ok o ∧ o ≠ blankOTS) →
        ∃ o, sign toyOtsEnc st' ⟨2, 3⟩ msg ([6] : Bytes) = .ok o ∧ o.verify toyScheme toyOtsEnc ⟨2, 3⟩ msg [1] = true) := by
  have hS : ∀ sk m, toyScheme.verify (toyScheme.pub sk) m (toyScheme.sign sk m) = true := fun sk m => by simp [toyScheme]
  obtain ⟨st, h⟩ := C21_total (S := toyScheme) toyOtsEnc ([1] : Bytes) (fun i => ([UInt8.ofNat i] : Bytes)) 0 3 (by decide) 4
    [⟨⟨1, 2⟩, fun i => ([UInt8.ofNat i] : Bytes)⟩] (by intro d hd; rw [List.mem_singleton.1 hd]; decide)
  refine ⟨st, C21_sign_verifies hS toyOtsEnc _ _ 0 3 (by decide) 4 _ st h ⟨2, 3⟩ (by decide) (by decide)
    (by intro d hd; rw [List.mem_singleton.1 hd]; simp [IdLe]) msg _,
    C22_forward_secure hS toyOtsEnc _ _ 0 3 (by decide) 4 _ st h ⟨1, 1⟩ _ (List.mem_singleton.2 rfl) (by simp [IdLe]) (by decide)
      (by decide) msg _, ?_⟩
  obtain ⟨st0, h0⟩ := toyOtsRun
  have : ∃ st', deleteBefore toyOtsEnc st ⟨2, 1⟩ 4 (fun i => ([UInt8.ofNat i] : Bytes)) = .ok st' := by
    rw [h0] at h
    cases h
    cases h0
    exact ⟨_, rfl⟩
  obtain ⟨st', h'⟩ := this
  exact ⟨st', h', fun hb => C23_future_kept hS toyOtsEnc _ _ 0 3 (by decide) 4 _ ⟨⟨2, 1⟩, _⟩ st st' h h' ⟨2, 3⟩ (by decide)
    (by simp [IdLe]) (by decide) (by decide) msg _ hb _⟩

/-- A case of `C22_retained_keys` and `C23_beyond_given_up`: fewer offsets than are asked for. -/
example (st : Secrets toyScheme)
    (h0 : generate toyScheme toyOtsEnc ([1] : Bytes) (fun i => ([UInt8.ofNat i] : Bytes)) 0 3 = .ok st) (st' : Secrets toyScheme)
    (h : deleteBefore toyOtsEnc st ⟨1, 2⟩ 4 (fun i => ([UInt8.ofNat i] : Bytes)) = .ok st') :
    ¬ Signable st' ⟨1, 4⟩ ∧ ∀ (i : Nat) (k : Subkey toyScheme), st'.batches[i]? = some k → 1 < st'.firstBatch + i :=
  ⟨C23_beyond_given_up toyOtsEnc st st' ⟨1, 2⟩ ⟨1, 4⟩ 4 _ h (by cases h0; decide) rfl (by decide) (by decide),
    fun i k hk => ((C22_retained_keys toyOtsEnc st st' ⟨1, 2⟩ 4 _ h).1 i k hk).1⟩

/-- A case of `C21_exact`: the blank signature does not verify under the example scheme. -/
example (st : Secrets toyScheme)
    (h : (generate toyScheme toyOtsEnc ([1] : Bytes) (fun i => ([UInt8.ofNat i] : Bytes)) 0 3 >>= fun st => runDels toyOtsEnc 4 st
        [⟨⟨1, 2⟩, fun i => ([UInt8.ofNat i] : Bytes)⟩]) = .ok st) (msg : Bytes) :
    ¬ ∃ o, sign toyOtsEnc st ⟨1, 1⟩ msg ([5] : Bytes) = .ok o ∧ o.verify toyScheme toyOtsEnc ⟨1, 1⟩ msg [1] = true := fun hs => by
  have hS : ∀ sk m, toyScheme.verify (toyScheme.pub sk) m (toyScheme.sign sk m) = true := fun sk m => by simp [toyScheme]
  have hb : ∀ id msg, blankOTS.verify toyScheme toyOtsEnc id msg (toyScheme.pub ([1] : Bytes)) = false := fun id m => by
    have : toyScheme.verify [1] (batchRep toyOtsEnc blankOTS.pk2 id.batch) blankOTS.pk2Sig = false := by
      simp [toyScheme, blankOTS, List.replicate]
    rw [OTS.verify]
    show (toyScheme.verify [1] _ _ && _ && _) = false
    rw [this]
    rfl
  have := ((C21_exact hS toyOtsEnc _ _ 0 3 (by decide) 4 _ st h hb ⟨1, 1⟩ (by decide) (by decide) (by decide) msg _).1 hs).2 _
    (List.mem_singleton.2 rfl)
  simp [IdLe] at this

/-- The hypotheses of the two cases are met. -/
example : ∃ st st' : Secrets toyScheme, generate toyScheme toyOtsEnc ([1] : Bytes) (fun i => ([UInt8.ofNat i] : Bytes)) 0 3 = .ok st ∧
    deleteBefore toyOtsEnc st ⟨1, 2⟩ 4 (fun i => ([UInt8.ofNat i] : Bytes)) = .ok st' ∧ st'.firstBatch = 2 ∧ st'.offsets.length = 2 :=
  ⟨_, _, rfl, rfl, by decide +kernel, by decide +kernel⟩

end Verif.Props
