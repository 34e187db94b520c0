import Verif.Props.AccountManager
/-!
# Restoring from a damaged key store (C175)
-/
namespace Verif.Props
open Verif Verif.Account Verif.Multisig Verif.Msgpack

/-- The record is there and has `n` bytes. -/
def Sized (r : Option Bytes) (n : Nat) : Prop := ∃ b, r = some b ∧ b.length = n

/-- The record is there and begins with an encoding of `x`. -/
def RecordOf {α : Type} (r : Option Bytes) (dec : MP → Option α) (x : α) : Prop :=
  ∃ raw m rest, r = some raw ∧ decode raw = some (m, rest) ∧ dec m = some x

/-- The record is there and is the big-endian form of `n`. -/
def NumberIn (r : Option Bytes) (n : Nat) : Prop := ∃ b, r = some b ∧ b.length = 8 ∧ ofBE b = n

/-- The step that reads a record by decoding: it crashes without the record, and refuses what it cannot decode. -/
theorem read_record {α : Type} (r : Option Bytes) (dec : MP → Option α) :
    (r = none ∧ (do let raw ← Res.ofOption r; orDecodeError ((decode raw).bind fun p => dec p.1)) = .panic) ∨
    (r ≠ none ∧ (∀ x, ¬ RecordOf r dec x) ∧
      (do let raw ← Res.ofOption r; orDecodeError ((decode raw).bind fun p => dec p.1)) = .err .decodeError) ∨
    (∃ x, RecordOf r dec x ∧ (∀ y, RecordOf r dec y → y = x) ∧
      (do let raw ← Res.ofOption r; orDecodeError ((decode raw).bind fun p => dec p.1)) = .ok x) := by
  cases r with
  | none => exact Or.inl ⟨rfl, rfl⟩
  | some raw =>
    right
    simp only [Res.ofOption_some, Res.ok_bind]
    cases hd : decode raw with
    | none =>
      refine Or.inl ⟨by simp, ?_, rfl⟩
      rintro x ⟨raw', m, rest, h1, h2, _⟩
      injection h1 with h1
      subst h1
      rw [hd] at h2; cases h2
    | some mr =>
      obtain ⟨m, rest⟩ := mr
      cases hx : dec m with
      | none =>
        refine Or.inl ⟨by simp, ?_, by simp [hx, orDecodeError]⟩
        rintro x ⟨raw', m', rest', h1, h2, h3⟩
        injection h1 with h1
        subst h1
        rw [hd] at h2
        injection h2 with h2
        injection h2 with h2 _
        subst h2
        rw [hx] at h3; cases h3
      | some x =>
        refine Or.inr ⟨x, ⟨raw, m, rest, rfl, hd, hx⟩, ?_, by simp [hx, orDecodeError]⟩
        rintro y ⟨raw', m', rest', h1, h2, h3⟩
        injection h1 with h1
        subst h1
        rw [hd] at h2
        injection h2 with h2
        injection h2 with h2 _
        subst h2
        rw [hx] at h3
        injection h3 with h3
        exact h3.symm

/-- The step that reads a record of fixed size: it crashes on any other size. -/
theorem read_sized {ε : Type} (r : Option Bytes) (n : Nat) :
    (¬ Sized r n ∧ (do let raw ← (Res.ofOption r : Res ε Bytes); exactLen n raw) = .panic) ∨
    (∃ b, r = some b ∧ b.length = n ∧ (do let raw ← (Res.ofOption r : Res ε Bytes); exactLen n raw) = .ok b) := by
  cases r with
  | none => exact Or.inl ⟨(by rintro ⟨b, h, _⟩; cases h), rfl⟩
  | some b =>
    by_cases h : b.length = n
    · exact Or.inr ⟨b, rfl, h, by simp [exactLen, h]⟩
    · refine Or.inl ⟨fun ⟨b', h1, h2⟩ => ?_, by simp [exactLen, h]⟩
      injection h1 with h1
      subst h1
      exact h h2

theorem res_assoc {ε α β γ : Type} (r : Res ε α) (f : α → Res ε β) (g : β → Res ε γ) :
    (r >>= f) >>= g = r >>= fun a => f a >>= g := by
  cases r <;> rfl

theorem restore_steps {S : Scheme} (K : Keys S) (s : Store) : restore K s =
    ((do let raw ← Res.ofOption (s .parent); exactLen 32 raw) >>= fun parent =>
     (do let raw ← Res.ofOption (s .vrf); orDecodeError ((decode raw).bind fun p => decVrf p.1)) >>= fun vrf =>
     (do let raw ← Res.ofOption (s .voting); orDecodeError ((decode raw).bind fun p => decSecrets K p.1)) >>= fun voting =>
     (do let raw ← Res.ofOption (s .firstValid); exactLen 8 raw) >>= fun first =>
     (do let raw ← Res.ofOption (s .lastValid); exactLen 8 raw) >>= fun last =>
     (do let raw ← Res.ofOption (s .keyDilution); exactLen 8 raw) >>= fun dilution =>
     .ok ⟨parent, vrf, voting, ofBE first, ofBE last, ofBE dilution⟩) := by
  simp only [restore, res_assoc]

/-- What a store says about a participation. -/
structure Describes {S : Scheme} (K : Keys S) (s : Store) (p : Participation S) : Prop where
  parent : s .parent = some p.parent
  address : p.parent.length = 32
  vrf : RecordOf (s .vrf) decVrf p.vrf
  voting : RecordOf (s .voting) (decSecrets K) p.voting
  first : NumberIn (s .firstValid) p.firstValid
  last : NumberIn (s .lastValid) p.lastValid
  dilution : NumberIn (s .keyDilution) p.keyDilution

/-- The damage that crashes the restoring. -/
inductive Fatal {S : Scheme} (K : Keys S) (s : Store) : Prop
  | parent : ¬ Sized (s .parent) 32 → Fatal K s
  | vrf : s .vrf = none → Fatal K s
  | voting (k) : RecordOf (s .vrf) decVrf k → s .voting = none → Fatal K s
  | number (k v n) : RecordOf (s .vrf) decVrf k → RecordOf (s .voting) (decSecrets K) v →
      (n = Name.firstValid ∨ n = Name.lastValid ∨ n = Name.keyDilution) → ¬ Sized (s n) 8 → Fatal K s

/-- The damage that is reported. -/
inductive Reported {S : Scheme} (K : Keys S) (s : Store) : Prop
  | vrf : Sized (s .parent) 32 → s .vrf ≠ none → (∀ k, ¬ RecordOf (s .vrf) decVrf k) → Reported K s
  | voting (k) : Sized (s .parent) 32 → RecordOf (s .vrf) decVrf k → s .voting ≠ none →
      (∀ v, ¬ RecordOf (s .voting) (decSecrets K) v) → Reported K s

/-- The three outcomes. -/
theorem restore_outcome {S : Scheme} (K : Keys S) (s : Store) :
    (restore K s = .panic ∧ Fatal K s ∧ ¬ Reported K s ∧ ∀ p, ¬ Describes K s p) ∨
    (restore K s = .err .decodeError ∧ ¬ Fatal K s ∧ Reported K s ∧ ∀ p, ¬ Describes K s p) ∨
    (∃ p, restore K s = .ok p ∧ ¬ Fatal K s ∧ ¬ Reported K s ∧ ∀ q, Describes K s q ↔ q = p) := by
  rw [restore_steps]
  rcases read_sized (ε := AccountError) (s .parent) 32 with ⟨hn, e⟩ | ⟨b, hb, hl, e⟩
  · rw [e]
    refine Or.inl ⟨rfl, .parent hn, ?_, fun p h => hn ⟨_, h.parent, h.address⟩⟩
    rintro (⟨h, _, _⟩ | ⟨_, h, _, _, _⟩) <;> exact hn h
  rw [e, Res.ok_bind]
  have hs : Sized (s .parent) 32 := ⟨b, hb, hl⟩
  rcases read_record (s .vrf) decVrf with ⟨hv, e⟩ | ⟨hv, hno, e⟩ | ⟨k, hk, huk, e⟩
  · rw [e]
    have hno : ∀ k, ¬ RecordOf (s .vrf) decVrf k := by
      rintro k ⟨raw, m, rest, h, _⟩; rw [hv] at h; cases h
    refine Or.inl ⟨rfl, .vrf hv, ?_, fun p h => hno _ h.vrf⟩
    rintro (⟨_, h, _⟩ | ⟨k, _, h, _, _⟩)
    · exact h hv
    · exact hno _ h
  · rw [e]
    refine Or.inr (Or.inl ⟨rfl, ?_, .vrf hs hv hno, fun p h => hno _ h.vrf⟩)
    rintro (h | h | ⟨k, h, _⟩ | ⟨k, v, n, h, _⟩)
    · exact h hs
    · exact hv h
    · exact hno _ h
    · exact hno _ h
  rw [e, Res.ok_bind]
  have hvp : s .vrf ≠ none := by
    obtain ⟨raw, m, rest, h, _⟩ := hk; rw [h]; simp
  rcases read_record (s .voting) (decSecrets K) with ⟨ht, e⟩ | ⟨ht, hno, e⟩ | ⟨v, hv, huv, e⟩
  · rw [e]
    have hno : ∀ k, ¬ RecordOf (s .voting) (decSecrets K) k := by
      rintro k ⟨raw, m, rest, h, _⟩; rw [ht] at h; cases h
    refine Or.inl ⟨rfl, .voting k hk ht, ?_, fun p h => hno _ h.voting⟩
    rintro (⟨_, _, h⟩ | ⟨k, _, _, h, _⟩)
    · exact h _ hk
    · exact h ht
  · rw [e]
    refine Or.inr (Or.inl ⟨rfl, ?_, .voting k hs hk ht hno, fun p h => hno _ h.voting⟩)
    rintro (h | h | ⟨k, _, h⟩ | ⟨k, v, n, _, h, _⟩)
    · exact h hs
    · exact hvp h
    · exact ht h
    · exact hno _ h
  rw [e, Res.ok_bind]
  have hvt : s .voting ≠ none := by
    obtain ⟨raw, m, rest, h, _⟩ := hv; rw [h]; simp
  have hnr : ¬ Reported K s := by
    rintro (⟨_, _, h⟩ | ⟨_, _, _, _, h⟩)
    · exact h _ hk
    · exact h _ hv
  rcases read_sized (ε := AccountError) (s .firstValid) 8 with ⟨hn, e⟩ | ⟨f, hf, hfl, e⟩
  · rw [e]
    exact Or.inl ⟨rfl, .number k v _ hk hv (Or.inl rfl) hn, hnr,
      fun p h => by obtain ⟨x, h1, h2, _⟩ := h.first; exact hn ⟨x, h1, h2⟩⟩
  rw [e, Res.ok_bind]
  rcases read_sized (ε := AccountError) (s .lastValid) 8 with ⟨hn, e⟩ | ⟨l, hla, hll, e⟩
  · rw [e]
    exact Or.inl ⟨rfl, .number k v _ hk hv (Or.inr (Or.inl rfl)) hn, hnr,
      fun p h => by obtain ⟨x, h1, h2, _⟩ := h.last; exact hn ⟨x, h1, h2⟩⟩
  rw [e, Res.ok_bind]
  rcases read_sized (ε := AccountError) (s .keyDilution) 8 with ⟨hn, e⟩ | ⟨d, hd, hdl, e⟩
  · rw [e]
    exact Or.inl ⟨rfl, .number k v _ hk hv (Or.inr (Or.inr rfl)) hn, hnr,
      fun p h => by obtain ⟨x, h1, h2, _⟩ := h.dilution; exact hn ⟨x, h1, h2⟩⟩
  rw [e, Res.ok_bind]
  refine Or.inr (Or.inr ⟨_, rfl, ?_, hnr, fun q => ⟨fun h => ?_, ?_⟩⟩)
  · rintro (h | h | ⟨k, _, h⟩ | ⟨k, v, n, _, _, h, h'⟩)
    · exact h hs
    · exact hvp h
    · exact hvt h
    · rcases h with rfl | rfl | rfl
      · exact h' ⟨f, hf, hfl⟩
      · exact h' ⟨l, hla, hll⟩
      · exact h' ⟨d, hd, hdl⟩
  · obtain ⟨p, kq, vq, fq, lq, dq⟩ := q
    obtain ⟨h1, h2, h3, h4, ⟨f', h5, _, h5'⟩, ⟨l', h6, _, h6'⟩, ⟨d', h7, _, h7'⟩⟩ := h
    simp only at *
    rw [hb] at h1; rw [hf] at h5; rw [hla] at h6; rw [hd] at h7
    injection h1 with h1; injection h5 with h5; injection h6 with h6; injection h7 with h7
    rw [huk _ h3, huv _ h4, h1, h5, h6, h7, h5', h6', h7']
  · rintro rfl
    exact ⟨hb, hl, hk, hv, ⟨f, hf, hfl, rfl⟩, ⟨l, hla, hll, rfl⟩, ⟨d, hd, hdl, rfl⟩⟩

/-- C175: a participation is restored exactly from the stores that describe it. -/
theorem C175_restored_partial {S : Scheme} (K : Keys S) (s : Store) (p : Participation S) :
    restore K s = .ok p ↔ Describes K s p := by
  rcases restore_outcome K s with ⟨e, _, _, h⟩ | ⟨e, _, _, h⟩ | ⟨q, e, _, _, h⟩
  · rw [e]; exact ⟨fun h => (by cases h), fun hp => absurd hp (h p)⟩
  · rw [e]; exact ⟨fun h => (by cases h), fun hp => absurd hp (h p)⟩
  · rw [e, h p]
    exact ⟨fun h => by injection h with h; exact h.symm, fun h => by rw [h]⟩

/-- C175: exactly which damage is reported, and how. -/
theorem C175_reported_partial {S : Scheme} (K : Keys S) (s : Store) (x : AccountError) :
    restore K s = .err x ↔ x = .decodeError ∧ Reported K s := by
  rcases restore_outcome K s with ⟨e, _, h, _⟩ | ⟨e, _, h, _⟩ | ⟨q, e, _, h, _⟩
  · rw [e]; exact ⟨fun h => (by cases h), fun hp => absurd hp.2 h⟩
  · rw [e]; exact ⟨fun hx => ⟨by injection hx with hx; exact hx.symm, h⟩, fun hx => by rw [hx.1]⟩
  · rw [e]; exact ⟨fun h => (by cases h), fun hp => absurd hp.2 h⟩

/-- C175: exactly which damage crashes the program. -/
theorem C175_crash_iff_partial {S : Scheme} (K : Keys S) (s : Store) :
    restore K s = .panic ↔ Fatal K s := by
  rcases restore_outcome K s with ⟨e, h, _, _⟩ | ⟨e, h, _, _⟩ | ⟨q, e, h, _, _⟩
  · rw [e]; exact ⟨fun _ => h, fun _ => rfl⟩
  · rw [e]; exact ⟨fun h => (by cases h), fun hp => absurd hp h⟩
  · rw [e]; exact ⟨fun h => (by cases h), fun hp => absurd hp h⟩

/-- C175: restoring the root key never crashes; the outcome says what is wrong. -/
theorem C175_root_partial {S : Scheme} (K : Keys S) (s : Store) :
    restoreRoot K s ≠ .panic ∧ (restoreRoot K s = .err .notFound ↔ s .root = none) ∧
    (∀ k, restoreRoot K s = .ok k ↔ RecordOf (s .root) (decKeypair K) k) ∧
    (restoreRoot K s = .err .decodeError ↔ s .root ≠ none ∧ ∀ k, ¬ RecordOf (s .root) (decKeypair K) k) := by
  have hr := read_record (s .root) (decKeypair K)
  unfold restoreRoot
  cases hs : s .root with
  | none =>
    refine ⟨by simp, by simp, fun k => ⟨fun h => (by cases h), ?_⟩, ⟨fun h => (by cases h), fun h => absurd rfl h.1⟩⟩
    rintro ⟨raw, m, rest, h, _⟩; cases h
  | some raw =>
    rw [hs] at hr
    simp only [Res.ofOption_some, Res.ok_bind] at hr
    rcases hr with ⟨h, _⟩ | ⟨_, hno, e⟩ | ⟨x, hx, hu, e⟩
    · cases h
    · simp only [e]
      exact ⟨by simp, by simp, fun k => ⟨fun h => (by cases h), fun h => absurd h (hno k)⟩, by simp [hno]⟩
    · simp only [e]
      refine ⟨by simp, by simp, fun k => ⟨fun h => ?_, fun h => by rw [hu _ h]⟩,
        ⟨fun h => (by cases h), fun h => absurd hx (h.2 x)⟩⟩
      injection h with h
      rw [← h]; exact hx

/-- C175 fails: a store with a missing or cut parent crashes the program, whatever the other records are; so does the
first start with an empty store. -/
theorem C175_violated :
    (∀ {S : Scheme} (K : Keys S), restore K (fun _ => none) = .panic) ∧
    (∀ {S : Scheme} (K : Keys S) (s : Store), restore K (s.insert .parent (List.replicate 31 0)) = .panic) ∧
    (∀ n, n = Name.firstValid ∨ n = Name.lastValid ∨ n = Name.keyDilution → ∀ b : Bytes, b.length ≠ 8 →
      restore byteKeys ((Store.inserts (fun _ => none) (persist byteKeys (toyPart 1))).insert n b) = .panic) := by
  refine ⟨fun K => rfl, fun K s => (C175_crash_iff_partial K _).2 (.parent ?_), fun n hn b hb => ?_⟩
  · rintro ⟨b, h, hl⟩
    simp only [Store.insert, if_true, Option.some.injEq] at h
    rw [← h] at hl
    simp at hl
  · have hd := (C175_restored_partial byteKeys _ (toyPart 1)).1 (C28_roundtrip byteKeys_good (fun _ => none) _ (toyPart_ok 1))
    refine (C175_crash_iff_partial _ _).2 (.number (toyPart 1).vrf (toyPart 1).voting n ?_ ?_ hn ?_)
    · have := hd.vrf
      rcases hn with rfl | rfl | rfl <;> simpa [Store.insert] using this
    · have := hd.voting
      rcases hn with rfl | rfl | rfl <;> simpa [Store.insert] using this
    · rintro ⟨b', h, hl⟩
      simp only [Store.insert, if_true, Option.some.injEq] at h
      rw [← h] at hl
      exact hb hl

example : Describes byteKeys (Store.inserts (fun _ => none) (persist byteKeys (toyPart 1))) (toyPart 1) :=
  (C175_restored_partial _ _ _).1 (C28_roundtrip byteKeys_good _ _ (toyPart_ok 1))

/-- A record that cannot be decoded is reported. -/
example : restore byteKeys ((Store.inserts (fun _ => none) (persist byteKeys (toyPart 1))).insert .vrf [0xc1]) =
    .err .decodeError := by
  have hd := (C175_restored_partial byteKeys _ (toyPart 1)).1 (C28_roundtrip byteKeys_good (fun _ => none) _ (toyPart_ok 1))
  refine (C175_reported_partial _ _ _).2 ⟨rfl, .vrf ⟨_, ?_, hd.address⟩ (by simp [Store.insert]) ?_⟩
  · have := hd.parent
    simpa [Store.insert] using this
  · rintro k ⟨raw, m, rest, h, h', _⟩
    simp only [Store.insert, if_true, Option.some.injEq] at h
    subst h
    have : decode [0xc1] = none := by decide +kernel
    rw [this] at h'; cases h'

end Verif.Props
