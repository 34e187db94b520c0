import Verif.Model.StoreFault
import Verif.Props.AccountManager

/-!
# Properties of the key store under failures (C155, C156)
-/

namespace Verif.Props
open Verif Verif.Account Verif.Ots Verif.Multisig Verif.Msgpack

/-- What can be in the database after a crash and a restart: what was permanent and the first of the inserts since. -/
def AfterCrash (d : Disk) (s : Store) : Prop := ∃ k, s = d.durable.inserts (d.pending.take k)

theorem inserts_append (s : Store) (a b : List (Name × Bytes)) : s.inserts (a ++ b) = (s.inserts a).inserts b := by
  induction a generalizing s with
  | nil => rfl
  | cons e a ih => obtain ⟨k, v⟩ := e; exact ih _

/-- Storing succeeds exactly when no access fails, and then everything is permanent; otherwise it reports a storage
error, and the inserts before the failing access are in the database, not yet permanent. -/
theorem storeF_cases (fail : Nat → Bool) (w : List (Name × Bytes)) (m : Medium) :
    ((∀ i, i ≤ w.length → fail (m.clock + i) = false) ∧
      storeF fail w m = (.ok (), ⟨⟨m.disk.visible.inserts w, []⟩, m.clock + w.length + 1⟩)) ∨
    (∃ k, k ≤ w.length ∧ fail (m.clock + k) = true ∧ (∀ i, i < k → fail (m.clock + i) = false) ∧
      storeF fail w m = (.err .storage, ⟨⟨m.disk.durable, m.disk.pending ++ w.take k⟩, m.clock + k + 1⟩)) := by
  induction w generalizing m with
  | nil =>
    cases h : fail m.clock with
    | true =>
      refine Or.inr ⟨0, by simp, by simpa using h, by simp, ?_⟩
      simp [storeF, flushF, h]
    | false =>
      refine Or.inl ⟨fun i hi => ?_, ?_⟩
      · have : i = 0 := by simpa using hi
        subst this; simpa using h
      · simp [storeF, flushF, h, Store.inserts]
  | cons e w ih =>
    obtain ⟨n, v⟩ := e
    cases h : fail m.clock with
    | true =>
      refine Or.inr ⟨0, by simp, by simpa using h, by simp, ?_⟩
      simp [storeF, insertF, h]
    | false =>
      have hs : storeF fail ((n, v) :: w) m =
          storeF fail w ⟨⟨m.disk.durable, m.disk.pending ++ [(n, v)]⟩, m.clock + 1⟩ := by
        simp [storeF, insertF, h]
      rw [hs]
      rcases ih ⟨⟨m.disk.durable, m.disk.pending ++ [(n, v)]⟩, m.clock + 1⟩ with ⟨h1, h2⟩ | ⟨k, hk, h1, h3, h2⟩
      · refine Or.inl ⟨fun i hi => ?_, ?_⟩
        · cases i with
          | zero => simpa using h
          | succ i =>
            have := h1 i (by simpa using hi)
            simp only at this
            rw [show m.clock + (i + 1) = m.clock + 1 + i by omega]; exact this
        · rw [h2]
          simp only [Disk.visible, inserts_append, List.length_cons]
          rw [show m.clock + 1 + w.length + 1 = m.clock + (w.length + 1) + 1 by omega]
          rfl
      · refine Or.inr ⟨k + 1, by simpa using hk, ?_, ?_, ?_⟩
        · rw [show m.clock + (k + 1) = m.clock + 1 + k by omega]; exact h1
        · intro i hi
          cases i with
          | zero => simpa using h
          | succ i =>
            rw [show m.clock + (i + 1) = m.clock + 1 + i by omega]; exact h3 i (by omega)
        · rw [h2]
          simp only [List.take_succ_cons, List.append_assoc, List.singleton_append]
          rw [show m.clock + 1 + k + 1 = m.clock + (k + 1) + 1 by omega]

theorem afterCrash_done (s : Store) (x : Store) (h : AfterCrash ⟨s, []⟩ x) : x = s := by
  obtain ⟨k, rfl⟩ := h
  simp [Store.inserts]

/-- A crash after some inserts leaves what a crash before them could leave, or all that was visible before and some of
them. -/
theorem afterCrash_append (d : Disk) (w : List (Name × Bytes)) (x : Store)
    (h : AfterCrash ⟨d.durable, d.pending ++ w⟩ x) : AfterCrash d x ∨ ∃ j, x = d.visible.inserts (w.take j) := by
  obtain ⟨k, rfl⟩ := h
  simp only
  rw [List.take_append]
  by_cases hk : k ≤ d.pending.length
  · left
    refine ⟨k, ?_⟩
    rw [Nat.sub_eq_zero_of_le hk, List.take_zero, List.append_nil]
  · right
    refine ⟨k - d.pending.length, ?_⟩
    rw [inserts_append, List.take_of_length_le (by omega)]
    rfl

/-! ## C155: failures of the key store are reported -/

/-- C155: persisting a participation returns normally exactly when none of its seven accesses fails, and then the
participation is restored whatever crash follows; otherwise it reports the storage error, and it never panics. -/
theorem C155_persist {S : Scheme} {K : Keys S} (hK : GoodKeys K) (fail : Nat → Bool) (p : Participation S)
    (hp : PartOk K p) (m : Medium) :
    ((persistF K fail p m).1 = .ok () ↔ ∀ i, i ≤ 6 → fail (m.clock + i) = false) ∧
    ((persistF K fail p m).1 = .ok () → ∀ s, AfterCrash (persistF K fail p m).2.disk s → restore K s = .ok p) ∧
    ((persistF K fail p m).1 ≠ .ok () → (persistF K fail p m).1 = .err .storage ∧
      ∃ k, k ≤ 6 ∧ (persistF K fail p m).2.disk.visible = m.disk.visible.inserts ((persist K p).take k)) := by
  rw [persistF]
  rcases storeF_cases fail (persist K p) m with ⟨h1, h2⟩ | ⟨k, hk, h1, _, h2⟩
  · rw [h2]
    refine ⟨⟨fun _ => h1, fun _ => rfl⟩, fun _ s hs => ?_, fun h => absurd rfl h⟩
    rw [afterCrash_done _ _ hs]
    exact C28_roundtrip hK _ p hp
  · rw [h2]
    refine ⟨⟨fun h => (nomatch h), fun h => ?_⟩, fun h => (nomatch h), fun _ => ⟨rfl, k, hk, ?_⟩⟩
    · rw [h k hk] at h1; cases h1
    · simp only [Disk.visible, inserts_append]

/-- C155: the same for a new parent: either it is permanent or the error is reported. -/
theorem C155_new_parent {S : Scheme} {K : Keys S} (hK : GoodKeys K) (fail : Nat → Bool) (p q : Participation S)
    (hp : PartOk K p) (hq : q.parent.length = 32) (m : Medium) (hold : Holds K m.disk.visible p) :
    ((persistNewParentF fail q m).1 = .ok () ↔ fail m.clock = false ∧ fail (m.clock + 1) = false) ∧
    ((persistNewParentF fail q m).1 = .ok () → ∀ s, AfterCrash (persistNewParentF fail q m).2.disk s →
      restore K s = .ok { p with parent := q.parent }) ∧
    ((persistNewParentF fail q m).1 ≠ .ok () → (persistNewParentF fail q m).1 = .err .storage) := by
  rw [persistNewParentF]
  rcases storeF_cases fail (persistNewParent q) m with ⟨h1, h2⟩ | ⟨k, hk, h1, _, h2⟩
  · rw [h2]
    refine ⟨⟨fun _ => ⟨by simpa using h1 0 (by simp), by simpa using h1 1 (by simp [persistNewParent])⟩, fun _ => rfl⟩,
      fun _ s hs => ?_, fun h => absurd rfl h⟩
    rw [afterCrash_done _ _ hs]
    refine restore_holds hK ⟨hq, hp.vrfPriv, hp.vrfPub, hp.voting, hp.firstValid, hp.lastValid, hp.keyDilution⟩ ?_
    simp only [Holds, persist, List.mem_cons, List.not_mem_nil, or_false, forall_eq_or_imp, forall_eq] at hold
    simp [Holds, persist, persistNewParent, Store.inserts, Store.insert, hold]
  · rw [h2]
    refine ⟨⟨fun h => (nomatch h), fun h => ?_⟩, fun h => (nomatch h), fun _ => rfl⟩
    have hk : k = 0 ∨ k = 1 := by simp [persistNewParent] at hk; omega
    rcases hk with rfl | rfl
    · rw [Nat.add_zero, h.1] at h1; cases h1
    · rw [h.2] at h1; cases h1

/-- Reading several values. -/
theorem getsF_cases (fail : Nat → Bool) (ks : List Name) (m : Medium) :
    ((∀ i, i < ks.length → fail (m.clock + i) = false) ∧
      getsF fail ks m = (.ok (ks.map fun k => (k, m.disk.visible k)), ⟨m.disk, m.clock + ks.length⟩)) ∨
    (∃ k, k < ks.length ∧ fail (m.clock + k) = true ∧
      getsF fail ks m = (.err .storage, ⟨m.disk, m.clock + k + 1⟩)) := by
  induction ks generalizing m with
  | nil => exact Or.inl ⟨fun i hi => absurd hi (by simp), rfl⟩
  | cons n ks ih =>
    cases h : fail m.clock with
    | true =>
      refine Or.inr ⟨0, by simp, by simpa using h, ?_⟩
      simp [getsF, h]
    | false =>
      rcases ih ⟨m.disk, m.clock + 1⟩ with ⟨h1, h2⟩ | ⟨k, hk, h1, h2⟩
      · refine Or.inl ⟨fun i hi => ?_, ?_⟩
        · cases i with
          | zero => simpa using h
          | succ i =>
            rw [show m.clock + (i + 1) = m.clock + 1 + i by omega]; exact h1 i (by simpa using hi)
        · rw [getsF, if_neg (by simp [h]), h2]
          simp only [List.map_cons, List.length_cons]
          rw [show m.clock + 1 + ks.length = m.clock + (ks.length + 1) by omega]
      · refine Or.inr ⟨k + 1, by simpa using hk, ?_, ?_⟩
        · rw [show m.clock + (k + 1) = m.clock + 1 + k by omega]; exact h1
        · rw [getsF, if_neg (by simp [h]), h2]
          simp only
          rw [show m.clock + 1 + k + 1 = m.clock + (k + 1) + 1 by omega]

/-- C155: restoring a participation changes nothing; it reports a storage error exactly when one of its six reads fails,
and otherwise returns what is stored. -/
theorem C155_restore {S : Scheme} (K : Keys S) (fail : Nat → Bool) (m : Medium) :
    (restoreF K fail m).2.disk = m.disk ∧
    ((∃ i, i < 6 ∧ fail (m.clock + i) = true) → (restoreF K fail m).1 = .err .storage) ∧
    ((∀ i, i < 6 → fail (m.clock + i) = false) → ∀ (p : Participation S) (e : AccountError),
      ((restoreF K fail m).1 = .ok p ↔ restore K m.disk.visible = .ok p) ∧
      ((restoreF K fail m).1 = .err (.account e) ↔ restore K m.disk.visible = .err e) ∧
      ((restoreF K fail m).1 = .panic ↔ restore K m.disk.visible = .panic)) := by
  rw [restoreF]
  rcases getsF_cases fail [.parent, .vrf, .voting, .firstValid, .lastValid, .keyDilution] m with
    ⟨h1, h2⟩ | ⟨k, hk, h1, h2⟩
  · rw [h2]
    refine ⟨rfl, fun ⟨i, hi, hf⟩ => ?_, fun _ p e => ?_⟩
    · rw [h1 i hi] at hf; cases hf
    · have hr : restore K (readValues ([Name.parent, .vrf, .voting, .firstValid, .lastValid, .keyDilution].map
          fun k => (k, m.disk.visible k))) = restore K m.disk.visible := by
        simp [restore, readValues]
      simp only [hr]
      cases restore K m.disk.visible <;> simp [withStorage]
  · rw [h2]
    exact ⟨rfl, fun _ => rfl, fun h => by rw [h k hk] at h1; cases h1⟩

/-- C155: the same for the root account. -/
theorem C155_restore_root {S : Scheme} (K : Keys S) (fail : Nat → Bool) (m : Medium) :
    (restoreRootF K fail m).2.disk = m.disk ∧
    (fail m.clock = true → (restoreRootF K fail m).1 = .err .storage) ∧
    (fail m.clock = false → ∀ (sk : S.Sk) (e : AccountError),
      ((restoreRootF K fail m).1 = .ok sk ↔ restoreRoot K m.disk.visible = .ok sk) ∧
      ((restoreRootF K fail m).1 = .err (.account e) ↔ restoreRoot K m.disk.visible = .err e)) := by
  rw [restoreRootF]
  rcases getsF_cases fail [.root] m with ⟨h1, h2⟩ | ⟨k, hk, h1, h2⟩
  · rw [h2]
    refine ⟨rfl, fun hf => ?_, fun _ p e => ?_⟩
    · have := h1 0 (by simp)
      rw [Nat.add_zero, hf] at this; cases this
    · have hr : restoreRoot K (readValues ([Name.root].map fun k => (k, m.disk.visible k))) =
          restoreRoot K m.disk.visible := by
        simp [restoreRoot, readValues]
      simp only [hr]
      cases restoreRoot K m.disk.visible <;> simp [withStorage]
  · rw [h2]
    have hk : k = 0 := by simpa using hk
    subst hk
    exact ⟨rfl, fun _ => rfl, fun h => by rw [Nat.add_zero, h] at h1; cases h1⟩

/-- C155: importing a root key that the library accepts returns it exactly when nothing fails, and then it is restored
whatever crash follows; otherwise the storage error is reported. -/
theorem C155_import {S : Scheme} {K : Keys S} (hK : GoodKeys K) (fail : Nat → Bool) (b : Bytes) (sk : S.Sk)
    (hb : K.skOf b = some sk) (m : Medium) :
    (fail m.clock = false → fail (m.clock + 1) = false → (importRootF K fail b m).1 = .ok sk ∧
      ∀ s, AfterCrash (importRootF K fail b m).2.disk s → restoreRoot K s = .ok sk) ∧
    (fail m.clock = true ∨ fail (m.clock + 1) = true → (importRootF K fail b m).1 = .err .storage) := by
  obtain ⟨w, hw, _⟩ := C90_restored_partial hK (fun _ => none) b sk hb
  have hlen : w.length = 1 := by
    rw [importRoot, hb, Res.ofOption_some, Res.ok_bind] at hw
    injection hw with hw; injection hw with _ hw; subst hw; rfl
  have hres : ∀ s : Store, restoreRoot K (s.inserts w) = .ok sk := fun s => by
    obtain ⟨w', hw', h2, _⟩ := C90_restored_partial hK s b sk hb
    rw [hw] at hw'; injection hw' with hw'; injection hw' with _ hw'; subst hw'; exact h2
  rw [importRootF, hw]
  rcases storeF_cases fail w m with ⟨h1, h2⟩ | ⟨k, hk, h1, _, h2⟩
  · simp only [h2]
    refine ⟨fun _ _ => ⟨trivial, fun s hs => ?_⟩, fun h => ?_⟩
    · rw [afterCrash_done _ _ hs]; exact hres _
    · have a := h1 0 (by simp)
      have b := h1 1 (by omega)
      rw [Nat.add_zero] at a
      rcases h with h | h
      · rw [h] at a; cases a
      · rw [h] at b; cases b
  · simp only [h2]
    refine ⟨fun ha hb => ?_, fun _ => trivial⟩
    have hk : k = 0 ∨ k = 1 := by omega
    rcases hk with rfl | rfl
    · rw [Nat.add_zero, ha] at h1; cases h1
    · rw [hb] at h1; cases h1

/-- C155, the part that holds for generating participation keys: without a failure they are returned, and stored whatever
crash follows. Missing: a failure. -/
theorem C155_generate_partial {G : Type} [AddCommGroup G] {S : Scheme} {K : Keys S} (hK : GoodKeys K) (E : Enc)
    (C : Vrf.Curve G) (fail : Nat → Bool) (master : S.Sk) (eph : Nat → S.Sk) (seed parent : Bytes) (first last d : Nat)
    (h : first ≤ last) (hd : 0 < d) (hl : last + 1 < u64Lim) (m : Medium)
    (hf : ∀ i, i ≤ 6 → fail (m.clock + i) = false) :
    ∃ p, fillDb E K C master eph seed parent first last d = .ok (p, persist K p) ∧
      (fillDbF E K C fail master eph seed parent first last d m).1 = .ok p ∧
      ∀ s, AfterCrash (fillDbF E K C fail master eph seed parent first last d m).2.disk s →
        Holds K s p ∧ (PartOk K p → restore K s = .ok p) := by
  obtain ⟨p, hg, _⟩ := C27_covers_interval hK E C master eph seed parent first last d h hd hl
  refine ⟨p, hg, ?_⟩
  rw [fillDbF, hg]
  rcases storeF_cases fail (persist K p) m with ⟨h1, h2⟩ | ⟨k, hk, h1, _, h2⟩
  · simp only [h2]
    refine ⟨trivial, fun s hs => ?_⟩
    rw [afterCrash_done _ _ hs]
    refine ⟨?_, fun hp => C28_roundtrip hK _ p hp⟩
    simp [Holds, persist, Store.inserts, Store.insert]
  · rw [hf k hk] at h1; cases h1

/-- C155 fails for generating participation keys: although the function has an error for it, any failing access to the
storage crashes the program. -/
theorem C155_generate_violated {G : Type} [AddCommGroup G] {S : Scheme} {K : Keys S} (hK : GoodKeys K) (E : Enc)
    (C : Vrf.Curve G) (fail : Nat → Bool) (master : S.Sk) (eph : Nat → S.Sk) (seed parent : Bytes) (first last d : Nat)
    (h : first ≤ last) (hd : 0 < d) (hl : last + 1 < u64Lim) (m : Medium)
    (hf : ∃ i, i ≤ 6 ∧ fail (m.clock + i) = true) :
    (fillDbF E K C fail master eph seed parent first last d m).1 = .panic := by
  obtain ⟨p, hg, _⟩ := C27_covers_interval hK E C master eph seed parent first last d h hd hl
  rw [fillDbF, hg]
  rcases storeF_cases fail (persist K p) m with ⟨h1, h2⟩ | ⟨k, hk, h1, _, h2⟩
  · obtain ⟨i, hi, hfi⟩ := hf
    rw [h1 i hi] at hfi; cases hfi
  · simp only [h2]

/-! ## C156: deleted keys stay deleted -/

/-- **C156**: failing accesses do not make deleting crash: it crashes for the same arguments as on a storage that works,
and otherwise returns. -/
theorem C156_returns {S : Scheme} (E : Enc) (K : Keys S) (fail : Nat → Bool) (p : Participation S) (cur dd : Nat)
    (fresh : Nat → S.Sk) (m : Medium) (hc : cur < u64Lim) :
    (deleteOldKeysF E K fail p cur dd fresh m = .panic ↔ (p.keyDilution = 0 ∧ dd = 0) ∨
      (cur + 1 = u64Lim ∧ (p.keyDilution = 1 ∨ (p.keyDilution = 0 ∧ dd = 1)))) ∧
    ∀ e, deleteOldKeysF E K fail p cur dd fresh m ≠ .err e := by
  obtain ⟨h1, h2⟩ := C29_crash_iff E K p cur dd fresh hc
  rw [← h1]
  rw [deleteOldKeysF]
  cases hd : deleteOldKeys E K p cur dd fresh with
  | ok x => obtain ⟨q, w⟩ := x; simp
  | err e => exact absurd hd (h2 e)
  | panic => simp

/-- C156, one participation: whatever fails, the keys are gone from memory; if the call returns normally, they are gone
from the storage as well, whatever crash follows; if not, the storage error is reported and the participation from
before or from after is restored. -/
theorem C156_participation_partial {S : Scheme} {K : Keys S} (hK : GoodKeys K) {E : Enc} (hE : EmptyInvalid S E)
    (hne : Nonempty S.Sk) (fail : Nat → Bool) (p q : Participation S) (cur dd : Nat) (fresh : Nat → S.Sk)
    (r : Res StoreError Unit) (m m' : Medium) (hp : PartOk K p) (hd : 0 < p.keyDilution) (hd2 : p.keyDilution < u32Lim)
    (hc : Certified E p.voting) (hs : Holds K m.disk.visible p) (hcrash : ∀ s, AfterCrash m.disk s → restore K s = .ok p)
    (h : deleteOldKeysF E K fail p cur dd fresh m = .ok (q, r, m')) :
    (∀ n, n + 1 < u64Lim → (CanSign E q n ↔ CanSign E p n ∧ cur ≤ n)) ∧
    (r = .ok () ↔ fail m.clock = false ∧ fail (m.clock + 1) = false) ∧
    (r = .ok () → ∀ s, AfterCrash m'.disk s → restore K s = .ok q) ∧
    (r ≠ .ok () → r = .err .storage ∧ ∀ s, AfterCrash m'.disk s → restore K s = .ok p ∨ restore K s = .ok q) := by
  rw [deleteOldKeysF] at h
  cases hdel : deleteOldKeys E K p cur dd fresh with
  | panic => rw [hdel] at h; cases h
  | err e => rw [hdel] at h; cases h
  | ok x =>
    obtain ⟨q', w⟩ := x
    rw [hdel] at h
    simp only [Res.ok.injEq, Prod.mk.injEq] at h
    obtain ⟨rfl, h⟩ := h
    have h64 : p.keyDilution < u64Lim := lt_trans hd2 (by decide)
    refine ⟨fun n hn => C29_advanced hK hE hne p q' cur dd fresh w hd h64 hc hdel n hn, ?_⟩
    have hdil : (if p.keyDilution = 0 then dd else p.keyDilution) < u32Lim := by rw [if_neg (by omega)]; exact hd2
    obtain ⟨_, a2, a3, _, _, _⟩ := C29_crash_safe hK E m.disk.visible p q' cur dd fresh w hp hdil hs hdel
    have hw : w.length = 1 := by
      obtain ⟨v, _, _, _, rfl⟩ := deletion_cases hdel; rfl
    rcases storeF_cases fail w m with ⟨h1, h2⟩ | ⟨k, hk, h1, _, h2⟩
    · rw [h2] at h
      simp only [Prod.mk.injEq] at h
      obtain ⟨rfl, rfl⟩ := h
      refine ⟨⟨fun _ => ⟨by simpa using h1 0 (by simp), h1 1 (by omega)⟩, fun _ => rfl⟩, fun _ s hs => ?_,
        fun h => absurd rfl h⟩
      rw [afterCrash_done _ _ hs]; exact a2
    · rw [h2] at h
      simp only [Prod.mk.injEq] at h
      obtain ⟨rfl, rfl⟩ := h
      refine ⟨⟨fun h => (nomatch h), fun h => ?_⟩, fun h => (nomatch h), fun _ => ⟨rfl, fun s hs => ?_⟩⟩
      · have hk : k = 0 ∨ k = 1 := by omega
        rcases hk with rfl | rfl
        · rw [Nat.add_zero, h.1] at h1; cases h1
        · rw [h.2] at h1; cases h1
      · rcases afterCrash_append m.disk (w.take k) s hs with h | ⟨j, rfl⟩
        · exact Or.inl (hcrash s h)
        · rw [List.take_take]; exact a3 _

/-- A deletion: the round, the default dilution, the keys drawn. -/
structure FDel (S : Scheme) where
  cur : Nat
  dilution : Nat
  fresh : Nat → S.Sk

/-- Deletions one after the other, going on after a failure; what each of them returned. -/
def runFDels {S : Scheme} (E : Enc) (K : Keys S) (fail : Nat → Bool) :
    List (FDel S) → Participation S → Medium → Res Unit (Participation S × List (Res StoreError Unit) × Medium)
  | [], p, m => .ok (p, [], m)
  | d :: ds, p, m => do
    let (p', r, m') ← deleteOldKeysF E K fail p d.cur d.dilution d.fresh m
    let (p'', rs, m'') ← runFDels E K fail ds p' m'
    .ok (p'', r :: rs, m'')

/-- The participation in memory, and whatever a crash leaves in the storage, signs only for rounds in `lo` and for all
rounds in `hi`. -/
structure StoreInv {S : Scheme} (E : Enc) (K : Keys S) (lo hi : Nat → Prop) (p : Participation S) (m : Medium) : Prop where
  ok : PartOk K p
  dil : 0 < p.keyDilution ∧ p.keyDilution < u32Lim
  cert : Certified E p.voting
  mem : ∀ n, n + 1 < u64Lim → (CanSign E p n → lo n) ∧ (hi n → CanSign E p n)
  stored : ∀ s, AfterCrash m.disk s → ∃ v, Holds K s { p with voting := v } ∧ SecretsOk K v ∧
    ∀ n, n + 1 < u64Lim → (CanSign E { p with voting := v } n → lo n) ∧ (hi n → CanSign E { p with voting := v } n)

theorem storeInv_step {S : Scheme} {K : Keys S} (hK : GoodKeys K) {E : Enc} (hE : EmptyInvalid S E) (hne : Nonempty S.Sk)
    {fail : Nat → Bool} {lo hi : Nat → Prop} {p q : Participation S} {m m' : Medium} {cur dd : Nat} {fresh : Nat → S.Sk}
    {r : Res StoreError Unit} (hI : StoreInv E K lo hi p m) (h : deleteOldKeysF E K fail p cur dd fresh m = .ok (q, r, m')) :
    StoreInv E K (fun n => lo n ∧ (r = .ok () → cur ≤ n)) (fun n => hi n ∧ cur ≤ n) q m' ∧
      q = { p with voting := q.voting } := by
  rw [deleteOldKeysF] at h
  cases hdel : deleteOldKeys E K p cur dd fresh with
  | panic => rw [hdel] at h; cases h
  | err e => rw [hdel] at h; cases h
  | ok x =>
    obtain ⟨q', w⟩ := x
    rw [hdel] at h
    simp only [Res.ok.injEq, Prod.mk.injEq] at h
    obtain ⟨rfl, h⟩ := h
    have h64 : p.keyDilution < u64Lim := lt_trans hI.dil.2 (by decide)
    have hadv := C29_advanced hK hE hne p q' cur dd fresh w hI.dil.1 h64 hI.cert hdel
    obtain ⟨hq, hcert, _, _⟩ := deletion_sign hK hI.dil.1 hI.cert hdel
    have hdil : (if p.keyDilution = 0 then dd else p.keyDilution) < u32Lim := by
      rw [if_neg (by have := hI.dil.1; omega)]; exact hI.dil.2
    obtain ⟨v, hpos, hv, hq2, hw⟩ := deletion_cases hdel
    have hvok := deleteBefore_ok hK hv hI.ok.voting hdil (Nat.mod_lt _ hpos)
    have hqv : q'.voting = v := by rw [hq2]
    have hqok : PartOk K q' := by
      rw [hq2]
      exact ⟨hI.ok.parent, hI.ok.vrfPriv, hI.ok.vrfPub, hvok, hI.ok.firstValid, hI.ok.lastValid, hI.ok.keyDilution⟩
    have hwith : ∀ u, ({ q' with voting := u } : Participation S) = { p with voting := u } := fun u => by rw [hq2]
    -- what was stored before stays admissible, except for the rounds just deleted
    have hold : ∀ s, AfterCrash m.disk s → ∃ v, Holds K s { q' with voting := v } ∧ SecretsOk K v ∧
        ∀ n, n + 1 < u64Lim → (CanSign E { q' with voting := v } n → lo n) ∧
          (hi n ∧ cur ≤ n → CanSign E { q' with voting := v } n) := fun s hs => by
      obtain ⟨u, h1, h2, h3⟩ := hI.stored s hs
      rw [← hwith] at h1 h3
      exact ⟨u, h1, h2, fun n hn => ⟨(h3 n hn).1, fun hh => (h3 n hn).2 hh.1⟩⟩
    have hvis : Holds K (m.disk.visible.inserts w) q' := by
      obtain ⟨u, h1, _, _⟩ := hI.stored m.disk.visible ⟨m.disk.pending.length, by simp [Disk.visible]⟩
      subst hw
      rw [hq2]
      simp only [Holds, persist, List.mem_cons, List.not_mem_nil, or_false, forall_eq_or_imp, forall_eq] at h1
      simp [Holds, persist, Store.inserts, Store.insert, h1, snapshot]
    have hmem : ∀ n, n + 1 < u64Lim → (CanSign E q' n → lo n ∧ cur ≤ n) ∧ (hi n ∧ cur ≤ n → CanSign E q' n) :=
      fun n hn => ⟨fun hc => ⟨(hI.mem n hn).1 ((hadv n hn).1 hc).1, ((hadv n hn).1 hc).2⟩,
        fun hc => (hadv n hn).2 ⟨(hI.mem n hn).2 hc.1, hc.2⟩⟩
    have hself : ({ q' with voting := q'.voting } : Participation S) = q' := rfl
    have hwl : w.length = 1 := by rw [hw]; rfl
    refine ⟨⟨hqok, ⟨by rw [hq2]; exact hI.dil.1, by rw [hq2]; exact hI.dil.2⟩, hcert, fun n hn =>
      ⟨fun hc => ⟨((hmem n hn).1 hc).1, fun _ => ((hmem n hn).1 hc).2⟩, (hmem n hn).2⟩, ?_⟩, by rw [hq2]⟩
    rcases storeF_cases fail w m with ⟨h1, h2⟩ | ⟨k, hk, h1, _, h2⟩
    · rw [h2] at h
      simp only [Prod.mk.injEq] at h
      obtain ⟨rfl, rfl⟩ := h
      intro s hs
      rw [afterCrash_done _ _ hs]
      exact ⟨q'.voting, hvis, hqok.voting, fun n hn =>
        ⟨fun hc => ⟨((hmem n hn).1 hc).1, fun _ => ((hmem n hn).1 hc).2⟩, (hmem n hn).2⟩⟩
    · rw [h2] at h
      simp only [Prod.mk.injEq] at h
      obtain ⟨rfl, rfl⟩ := h
      intro s hs
      have hlo : ∀ n, lo n → lo n ∧ ((Res.err StoreError.storage : Res StoreError Unit) = .ok () → cur ≤ n) :=
        fun n hn => ⟨hn, fun h => (nomatch h)⟩
      have holdcase : AfterCrash m.disk s → ∃ v, Holds K s { q' with voting := v } ∧ SecretsOk K v ∧
          ∀ n, n + 1 < u64Lim → (CanSign E { q' with voting := v } n →
              lo n ∧ ((Res.err StoreError.storage : Res StoreError Unit) = .ok () → cur ≤ n)) ∧
            (hi n ∧ cur ≤ n → CanSign E { q' with voting := v } n) := fun h => by
        obtain ⟨u, a, b, c⟩ := hold s h
        exact ⟨u, a, b, fun n hn => ⟨fun hc => hlo n ((c n hn).1 hc), (c n hn).2⟩⟩
      rcases afterCrash_append m.disk (w.take k) s hs with h | ⟨j, hj⟩
      · exact holdcase h
      · rw [List.take_take] at hj
        rcases Nat.eq_zero_or_pos (min j k) with h0 | hpos'
        · rw [h0, List.take_zero] at hj
          exact holdcase ⟨m.disk.pending.length, by rw [hj]; simp [Disk.visible, Store.inserts]⟩
        · rw [List.take_of_length_le (by omega)] at hj
          rw [hj]
          exact ⟨q'.voting, hvis, hqok.voting, fun n hn =>
            ⟨fun hc => hlo n ((hmem n hn).1 hc).1, (hmem n hn).2⟩⟩

theorem storeInv_run {S : Scheme} {K : Keys S} (hK : GoodKeys K) {E : Enc} (hE : EmptyInvalid S E) (hne : Nonempty S.Sk)
    (fail : Nat → Bool) : ∀ (ds : List (FDel S)) (lo hi : Nat → Prop) (p q : Participation S) (m m' : Medium)
    (rs : List (Res StoreError Unit)), StoreInv E K lo hi p m → runFDels E K fail ds p m = .ok (q, rs, m') →
    StoreInv E K (fun n => lo n ∧ ∀ e ∈ ds.zip rs, e.2 = .ok () → e.1.cur ≤ n) (fun n => hi n ∧ ∀ d ∈ ds, d.cur ≤ n) q m' ∧
      q = { p with voting := q.voting } ∧ rs.length = ds.length
  | [], lo, hi, p, q, m, m', rs, hI, h => by
    injection h with h
    simp only [Prod.mk.injEq] at h
    obtain ⟨rfl, rfl, rfl⟩ := h
    exact ⟨by simpa using hI, rfl, rfl⟩
  | d :: ds, lo, hi, p, q, m, m', rs, hI, h => by
    rw [runFDels] at h
    obtain ⟨⟨p1, r, m1⟩, h1, h⟩ := Res.bind_eq_ok.1 h
    obtain ⟨⟨p2, rs2, m2⟩, h2, h⟩ := Res.bind_eq_ok.1 h
    simp only [Res.ok.injEq, Prod.mk.injEq] at h
    obtain ⟨rfl, rfl, rfl⟩ := h
    obtain ⟨a, b⟩ := storeInv_step hK hE hne hI h1
    obtain ⟨c, d', e⟩ := storeInv_run hK hE hne fail ds _ _ _ _ _ _ _ a h2
    refine ⟨?_, by rw [d', b], by simp [e]⟩
    have e1 : (fun n => lo n ∧ ∀ e ∈ (d :: ds).zip (r :: rs2), e.2 = .ok () → e.1.cur ≤ n) =
        fun n => (lo n ∧ (r = .ok () → d.cur ≤ n)) ∧ ∀ e ∈ ds.zip rs2, e.2 = .ok () → e.1.cur ≤ n := by
      funext n; simp [and_assoc]
    have e2 : (fun n => hi n ∧ ∀ x ∈ d :: ds, x.cur ≤ n) = fun n => (hi n ∧ d.cur ≤ n) ∧ ∀ x ∈ ds, x.cur ≤ n := by
      funext n; simp [and_assoc]
    rw [e1, e2]; exact c

/-- C156: any number of deletions of one participation with any failures, then a crash. The participation is restored; it
signs only for rounds it signed for in the beginning and that no deletion reported as done covers, and still for all
rounds that no deletion asked for covers. -/
theorem C156_history_partial {S : Scheme} {K : Keys S} (hK : GoodKeys K) {E : Enc} (hE : EmptyInvalid S E)
    (hne : Nonempty S.Sk) (fail : Nat → Bool) (p q : Participation S) (ds : List (FDel S))
    (rs : List (Res StoreError Unit)) (m m' : Medium) (hp : PartOk K p)
    (hd : 0 < p.keyDilution ∧ p.keyDilution < u32Lim) (hc : Certified E p.voting)
    (hs : ∀ s, AfterCrash m.disk s → Holds K s p) (h : runFDels E K fail ds p m = .ok (q, rs, m')) :
    ∀ s, AfterCrash m'.disk s → ∃ x, restore K s = .ok x ∧ x = { p with voting := x.voting } ∧
      ∀ n, n + 1 < u64Lim →
        (CanSign E x n → CanSign E p n ∧ ∀ e ∈ ds.zip rs, e.2 = .ok () → e.1.cur ≤ n) ∧
        (CanSign E p n → (∀ d ∈ ds, d.cur ≤ n) → CanSign E x n) := by
  intro s hcr
  obtain ⟨a, b, _⟩ := storeInv_run hK hE hne fail ds (CanSign E p) (CanSign E p) p q m m' rs
    ⟨hp, hd, hc, fun _ _ => ⟨id, id⟩, fun s hs' => ⟨p.voting, hs s hs', hp.voting, fun _ _ => ⟨id, id⟩⟩⟩ h
  obtain ⟨v, h1, h2, h3⟩ := a.stored s hcr
  have hok : PartOk K { q with voting := v } :=
    ⟨a.ok.parent, a.ok.vrfPriv, a.ok.vrfPub, h2, a.ok.firstValid, a.ok.lastValid, a.ok.keyDilution⟩
  refine ⟨_, restore_holds hK hok h1, ?_, fun n hn => ⟨(h3 n hn).1, fun x y => (h3 n hn).2 ⟨x, y⟩⟩⟩
  rw [b]

-- two deletions, the second of which fails when flushing: both are run, the first is reported as done and the second not
example : ∃ q m' rs, runFDels toyOtsEnc byteKeys (fun n => n == 3) [⟨2, 10, fun i => UInt8.ofNat i⟩, ⟨5, 10, fun i => UInt8.ofNat i⟩]
    (toyPart 1) ⟨⟨Store.inserts (fun _ => none) (persist byteKeys (toyPart 1)), []⟩, 0⟩ = .ok (q, rs, m') ∧
    rs = [.ok (), .err .storage] ∧ m'.disk.pending.length = 1 := by
  obtain ⟨p1, w1, h1⟩ := C29_total toyOtsEnc byteKeys (toyPart 1) 2 10 (fun i => UInt8.ofNat i) (Or.inr (by decide)) (by decide)
  obtain ⟨p2, w2, h2⟩ := C29_total toyOtsEnc byteKeys p1 5 10 (fun i => UInt8.ofNat i) (Or.inr (by decide)) (by decide)
  obtain ⟨v1, _, _, _, rfl⟩ := deletion_cases h1
  obtain ⟨v2, _, _, _, rfl⟩ := deletion_cases h2
  refine ⟨p2, ⟨⟨Disk.visible ⟨Store.inserts (fun _ => none) (persist byteKeys (toyPart 1)),
    [(.voting, enc (secretsMP byteKeys v1))]⟩, [(.voting, enc (secretsMP byteKeys v2))]⟩, 4⟩, [.ok (), .err .storage], ?_,
    rfl, rfl⟩
  simp only [runFDels, deleteOldKeysF, h1, h2, Res.ok_bind]
  rfl

/-- Whatever fails, the memory of the manager is the one without failures. -/
theorem deleteLoopF_memory {S : Scheme} (E : Enc) (K : Keys S) (fail : Nat → Bool) (header : Block.HeaderBody)
    (ccSigs : Bytes → Option Nat) (cr dd : Nat) (fresh : Identity → Nat → S.Sk) :
    ∀ (l : List (Identity × Participation S)) (m : Medium),
      (∀ l' w, deleteLoop E K header ccSigs cr dd fresh l = .ok (l', w) →
        ∃ m', deleteLoopF E K fail header ccSigs cr dd fresh l m = .ok (l', m')) ∧
      (∀ l' m', deleteLoopF E K fail header ccSigs cr dd fresh l m = .ok (l', m') →
        ∃ w, deleteLoop E K header ccSigs cr dd fresh l = .ok (l', w))
  | [], m => by
    refine ⟨fun l' w h => ?_, fun l' m' h => ?_⟩
    · injection h with h; injection h with h _; subst h; exact ⟨m, rfl⟩
    · injection h with h; injection h with h _; subst h; exact ⟨[], rfl⟩
  | (id, p) :: l, m => by
    refine ⟨fun l' w h => ?_, fun l' m' h => ?_⟩
    · rw [deleteLoop] at h
      obtain ⟨n, h1, h⟩ := Res.bind_eq_ok.1 h
      obtain ⟨⟨p', w1⟩, h2, h⟩ := Res.bind_eq_ok.1 h
      obtain ⟨⟨l1, w2⟩, h3, h⟩ := Res.bind_eq_ok.1 h
      simp only [Res.ok.injEq, Prod.mk.injEq] at h
      obtain ⟨rfl, rfl⟩ := h
      obtain ⟨m', hm'⟩ := (deleteLoopF_memory E K fail header ccSigs cr dd fresh l (storeF fail w1 m).2).1 _ _ h3
      refine ⟨m', ?_⟩
      rw [deleteLoopF, h1, Res.ok_bind, deleteOldKeysF, h2]
      simp only [Res.ok_bind]
      rw [hm']; rfl
    · rw [deleteLoopF] at h
      obtain ⟨n, h1, h⟩ := Res.bind_eq_ok.1 h
      obtain ⟨⟨p', r, m1⟩, h2, h⟩ := Res.bind_eq_ok.1 h
      obtain ⟨⟨l1, m2⟩, h3, h⟩ := Res.bind_eq_ok.1 h
      simp only [Res.ok.injEq, Prod.mk.injEq] at h
      obtain ⟨rfl, rfl⟩ := h
      obtain ⟨w2, hw2⟩ := (deleteLoopF_memory E K fail header ccSigs cr dd fresh l m1).2 _ _ h3
      rw [deleteOldKeysF] at h2
      cases hdel : deleteOldKeys E K p n dd (fresh id) with
      | panic => rw [hdel] at h2; cases h2
      | err e => rw [hdel] at h2; cases h2
      | ok x =>
        obtain ⟨q, w1⟩ := x
        rw [hdel] at h2
        simp only [Res.ok.injEq, Prod.mk.injEq] at h2
        obtain ⟨rfl, h2⟩ := h2
        refine ⟨w1 ++ w2, ?_⟩
        rw [deleteLoop, h1, Res.ok_bind, hdel]
        simp only [Res.ok_bind]
        rw [hw2]; rfl

/-- C156: failures of the storage do not change what the manager keeps in memory, nor whether it returns. -/
theorem C156_memory {S : Scheme} (E : Enc) (K : Keys S) (fail : Nat → Bool) (tbl : Consensus.Protocols) (mgr mgr' : Manager S)
    (d : DelOp S) (m : Medium) :
    (∃ m', mgr.deleteOldKeysF E K fail tbl d.header d.ccSigs d.dilution d.fresh d.order m = .ok (mgr', m')) ↔
    (∃ w, mgr.deleteOldKeys E K tbl d.header d.ccSigs d.dilution d.fresh d.order = .ok (mgr', w)) := by
  constructor
  · rintro ⟨m', h⟩
    rw [Manager.deleteOldKeysF] at h
    obtain ⟨latest, h1, h⟩ := Res.bind_eq_ok.1 h
    obtain ⟨⟨l, m1⟩, h2, h⟩ := Res.bind_eq_ok.1 h
    simp only [Res.ok.injEq, Prod.mk.injEq] at h
    obtain ⟨rfl, rfl⟩ := h
    obtain ⟨w, hw⟩ := (deleteLoopF_memory E K fail _ _ _ _ _ _ m).2 _ _ h2
    exact ⟨w, by rw [Manager.deleteOldKeys, h1, Res.ok_bind, hw]; rfl⟩
  · rintro ⟨w, h⟩
    rw [Manager.deleteOldKeys] at h
    obtain ⟨latest, h1, h⟩ := Res.bind_eq_ok.1 h
    obtain ⟨⟨l, w1⟩, h2, h⟩ := Res.bind_eq_ok.1 h
    simp only [Res.ok.injEq, Prod.mk.injEq] at h
    obtain ⟨rfl, rfl⟩ := h
    obtain ⟨m', hm'⟩ := (deleteLoopF_memory E K fail _ _ _ _ _ _ m).1 _ _ h2
    exact ⟨m', by rw [Manager.deleteOldKeysF, h1, Res.ok_bind, hm']; rfl⟩

theorem deleteLoopF_writes {S : Scheme} (E : Enc) (K : Keys S) (header : Block.HeaderBody)
    (ccSigs : Bytes → Option Nat) (cr dd : Nat) (fresh : Identity → Nat → S.Sk) :
    ∀ (l l' : List (Identity × Participation S)) (w : List (Name × Bytes)) (m m' : Medium),
      deleteLoop E K header ccSigs cr dd fresh l = .ok (l', w) →
      deleteLoopF E K (fun _ => false) header ccSigs cr dd fresh l m = .ok (l', m') →
      m'.disk.visible = m.disk.visible.inserts w ∧ (m.disk.pending = [] ∨ l ≠ [] → m'.disk.pending = [])
  | [], l', w, m, m', h, h' => by
    injection h with h; injection h with _ h; subst h
    injection h' with h'; injection h' with _ h'; subst h'
    exact ⟨rfl, fun h => h.elim id fun h => absurd rfl h⟩
  | (id, p) :: l, l', w, m, m', h, h' => by
    rw [deleteLoop] at h
    rw [deleteLoopF] at h'
    obtain ⟨n, h1, h⟩ := Res.bind_eq_ok.1 h
    rw [h1, Res.ok_bind] at h'
    obtain ⟨⟨p', w1⟩, h2, h⟩ := Res.bind_eq_ok.1 h
    rw [deleteOldKeysF, h2] at h'
    obtain ⟨⟨l1, w2⟩, h3, h⟩ := Res.bind_eq_ok.1 h
    simp only [Res.ok.injEq, Prod.mk.injEq] at h
    obtain ⟨rfl, rfl⟩ := h
    simp only [Res.ok_bind] at h'
    obtain ⟨⟨l2, m2⟩, h4, h'⟩ := Res.bind_eq_ok.1 h'
    simp only [Res.ok.injEq, Prod.mk.injEq, List.cons.injEq, true_and] at h'
    obtain ⟨rfl, rfl⟩ := h'
    rcases storeF_cases (fun _ => false) w1 m with ⟨_, e⟩ | ⟨k, _, hk, _⟩
    · rw [e] at h4
      obtain ⟨a, b⟩ := deleteLoopF_writes E K header ccSigs cr dd fresh l l2 w2 _ _ h3 h4
      exact ⟨by rw [a, inserts_append]; rfl, fun _ => b (.inl rfl)⟩
    · cases hk

/-- C156: without a failure the storage has everything the manager writes, key by key, and all of it is permanent. -/
theorem C156_manager_writes {S : Scheme} (E : Enc) (K : Keys S) (tbl : Consensus.Protocols) (mgr mgr' mgr'' : Manager S)
    (d : DelOp S) (w : List (Name × Bytes)) (m m' : Medium) (hm : m.disk.pending = [])
    (h : mgr.deleteOldKeys E K tbl d.header d.ccSigs d.dilution d.fresh d.order = .ok (mgr', w))
    (h' : mgr.deleteOldKeysF E K (fun _ => false) tbl d.header d.ccSigs d.dilution d.fresh d.order m = .ok (mgr'', m')) :
    mgr'' = mgr' ∧ ∀ s, AfterCrash m'.disk s → s = m.disk.visible.inserts w := by
  rw [Manager.deleteOldKeysF] at h'
  rw [Manager.deleteOldKeys] at h
  obtain ⟨latest, h1, h'⟩ := Res.bind_eq_ok.1 h'
  rw [h1, Res.ok_bind] at h
  obtain ⟨⟨l, m1⟩, h2, h'⟩ := Res.bind_eq_ok.1 h'
  simp only [Res.ok.injEq, Prod.mk.injEq] at h'
  obtain ⟨rfl, rfl⟩ := h'
  obtain ⟨⟨l1, w1⟩, h3, h⟩ := Res.bind_eq_ok.1 h
  simp only [Res.ok.injEq, Prod.mk.injEq] at h
  obtain ⟨rfl, rfl⟩ := h
  obtain ⟨w2, h4⟩ := (deleteLoopF_memory E K (fun _ => false) _ _ _ _ _ _ m).2 _ _ h2
  rw [h3] at h4
  simp only [Res.ok.injEq, Prod.mk.injEq] at h4
  obtain ⟨rfl, rfl⟩ := h4
  obtain ⟨a, b⟩ := deleteLoopF_writes E K _ _ _ _ _ _ _ _ _ _ h3 h2
  have b := b (.inl hm)
  refine ⟨rfl, fun s ⟨k, hs⟩ => ?_⟩
  rw [hs, b, ← a, Disk.visible, b]
  rw [List.take_nil]

/-- C156, the part that holds for the manager: with one managed participation and no failure, what is restored after any
crash is what the manager has in memory. Missing: failures (and several participations, C91). -/
theorem C156_manager_partial {S : Scheme} {K : Keys S} (hK : GoodKeys K) (E : Enc) (fail : Nat → Bool)
    (tbl : Consensus.Protocols) (mgr mgr' : Manager S) (d : DelOp S) (id : Identity) (p : Participation S) (m m' : Medium)
    (hm : mgr.partKeys = [(id, p)]) (hp : PartOk K p)
    (hdil : (if p.keyDilution = 0 then d.dilution else p.keyDilution) < u32Lim)
    (hs : Holds K m.disk.visible p) (hf : fail m.clock = false ∧ fail (m.clock + 1) = false)
    (h : mgr.deleteOldKeysF E K fail tbl d.header d.ccSigs d.dilution d.fresh d.order m = .ok (mgr', m')) :
    ∃ q, mgr'.partKeys = [(id, q)] ∧ ∀ s, AfterCrash m'.disk s → restore K s = .ok q := by
  rw [Manager.deleteOldKeysF] at h
  obtain ⟨latest, _, h⟩ := Res.bind_eq_ok.1 h
  obtain ⟨⟨l, m1⟩, h2, h⟩ := Res.bind_eq_ok.1 h
  simp only [Res.ok.injEq, Prod.mk.injEq] at h
  obtain ⟨rfl, rfl⟩ := h
  have ho : d.order mgr.partKeys = [(id, p)] := by
    have := d.perm mgr.partKeys
    rw [hm] at this ⊢
    exact List.perm_singleton.1 this
  rw [ho, deleteLoopF] at h2
  obtain ⟨n, _, h2⟩ := Res.bind_eq_ok.1 h2
  obtain ⟨⟨p', r, m2⟩, h3, h2⟩ := Res.bind_eq_ok.1 h2
  simp only [deleteLoopF, Res.ok_bind, Res.ok.injEq, Prod.mk.injEq] at h2
  obtain ⟨rfl, rfl⟩ := h2
  refine ⟨p', rfl, ?_⟩
  rw [deleteOldKeysF] at h3
  cases hdel : deleteOldKeys E K p n d.dilution (d.fresh id) with
  | panic => rw [hdel] at h3; cases h3
  | err e => rw [hdel] at h3; cases h3
  | ok x =>
    obtain ⟨q', w⟩ := x
    rw [hdel] at h3
    simp only [Res.ok.injEq, Prod.mk.injEq] at h3
    obtain ⟨rfl, h3⟩ := h3
    obtain ⟨_, a2, _⟩ := C29_crash_safe hK E m.disk.visible p q' n d.dilution (d.fresh id) w hp hdil hs hdel
    have hw : w.length = 1 := by
      obtain ⟨v, _, _, _, rfl⟩ := deletion_cases hdel; rfl
    rcases storeF_cases fail w m with ⟨h1, h4⟩ | ⟨k, hk, h1, _, h4⟩
    · rw [h4] at h3
      simp only [Prod.mk.injEq] at h3
      obtain ⟨_, rfl⟩ := h3
      intro s hs
      rw [afterCrash_done _ _ hs]; exact a2
    · have hk : k = 0 ∨ k = 1 := by omega
      rcases hk with rfl | rfl
      · rw [Nat.add_zero, hf.1] at h1; cases h1
      · rw [hf.2] at h1; cases h1

/-- C156 fails for the manager: it returns as always when the storage refuses the write, and the keys it no longer has in
memory come back with the next start. -/
theorem C156_violated : ∃ (fail : Nat → Bool) (mgr mgr' : Manager byteScheme) (d : DelOp byteScheme) (m m' : Medium)
    (q : Participation byteScheme),
    mgr.deleteOldKeysF toyOtsEnc byteKeys fail toyTable d.header d.ccSigs d.dilution d.fresh d.order m = .ok (mgr', m') ∧
    mgr'.partKeys.map (·.2) = [q] ∧ ¬ CanSign toyOtsEnc q 3 ∧
    ∀ s, AfterCrash m'.disk s → ∃ p, restore byteKeys s = .ok p ∧ CanSign toyOtsEnc p 3 := by
  have hkeys : ∀ e ∈ (Manager.empty.addParticipation (toyPart 1)).1.partKeys, 0 < e.2.keyDilution := by
    simp [Manager.addParticipation, Manager.empty, toyPart]
  obtain ⟨mgr', w, h⟩ := certDeletion_ok _ hkeys
  have hl : (Manager.empty.addParticipation (toyPart 1)).1.partKeys = [((toyPart 1).identity, toyPart 1)] := by
    simp [Manager.addParticipation, Manager.empty]
  obtain ⟨m', hm'⟩ := (C156_memory toyOtsEnc byteKeys (fun _ => true) toyTable _ mgr' certDeletion
    ⟨⟨Store.inserts (fun _ => none) (persist byteKeys (toyPart 1)), []⟩, 0⟩).2 ⟨w, h⟩
  have hdisk : m'.disk = ⟨Store.inserts (fun _ => none) (persist byteKeys (toyPart 1)), []⟩ ∧
      ∃ q w, mgr'.partKeys.map (·.2) = [q] ∧
        deleteOldKeys toyOtsEnc byteKeys (toyPart 1) 6 10 (certDeletion.fresh (toyPart 1).identity) = .ok (q, w) := by
    rw [Manager.deleteOldKeysF] at hm'
    obtain ⟨latest, _, hm'⟩ := Res.bind_eq_ok.1 hm'
    obtain ⟨⟨l, m1⟩, h2, hm'⟩ := Res.bind_eq_ok.1 hm'
    simp only [Res.ok.injEq, Prod.mk.injEq] at hm'
    obtain ⟨rfl, rfl⟩ := hm'
    have ho : certDeletion.order (Manager.empty.addParticipation (toyPart 1)).1.partKeys =
        [((toyPart 1).identity, toyPart 1)] := hl
    rw [ho, deleteLoopF] at h2
    obtain ⟨n, hn, h2⟩ := Res.bind_eq_ok.1 h2
    obtain ⟨⟨p', r, m2⟩, h3, h2⟩ := Res.bind_eq_ok.1 h2
    simp only [deleteLoopF, Res.ok_bind, Res.ok.injEq, Prod.mk.injEq] at h2
    obtain ⟨rfl, rfl⟩ := h2
    have hn6 : n = 6 := by
      have : nextRound certDeletion.header.body certDeletion.ccSigs latest.compactCertRounds (toyPart 1).parent = .ok 6 :=
        rfl
      rw [this] at hn; injection hn with hn; exact hn.symm
    subst hn6
    rw [deleteOldKeysF] at h3
    cases hdel : deleteOldKeys toyOtsEnc byteKeys (toyPart 1) 6 certDeletion.dilution
        (certDeletion.fresh (toyPart 1).identity) with
    | panic => rw [hdel] at h3; cases h3
    | err e => rw [hdel] at h3; cases h3
    | ok x =>
      obtain ⟨q', w⟩ := x
      rw [hdel] at h3
      simp only [Res.ok.injEq, Prod.mk.injEq] at h3
      obtain ⟨rfl, h3⟩ := h3
      refine ⟨?_, q', w, rfl, hdel⟩
      rcases storeF_cases (fun _ => true) w
        ⟨⟨Store.inserts (fun _ => none) (persist byteKeys (toyPart 1)), []⟩, 0⟩ with ⟨h1, _⟩ | ⟨k, _, _, h5, h4⟩
      · exact absurd (h1 0 (by simp)) (by simp)
      · have hk : k = 0 := by
          by_contra hk
          exact absurd (h5 0 (by omega)) (by simp)
        subst hk
        rw [h4] at h3
        simp only [Prod.mk.injEq] at h3
        obtain ⟨_, rfl⟩ := h3
        simp
  obtain ⟨hd, q, w', hq, hdel⟩ := hdisk
  have hc := toyPart_certified 1
  have hadv := C29_advanced byteKeys_good emptyInvalid_byte ⟨(0 : UInt8)⟩ _ _ _ _ _ _ (by decide) (by decide) hc hdel
  have hsig := canSign_iff byteKeys_good.correct emptyInvalid_byte ⟨(0 : UInt8)⟩ hc (by decide) (by decide) 3 (by decide)
  refine ⟨_, _, mgr', certDeletion, _, m', q, hm', hq, fun h3 => ?_, fun s hs => ?_⟩
  · have := ((hadv 3 (by decide)).1 h3).2
    omega
  · rw [hd] at hs
    rw [afterCrash_done _ _ hs]
    exact ⟨toyPart 1, C28_roundtrip byteKeys_good _ _ (toyPart_ok 1), hsig.2 (Or.inr (by decide))⟩

-- a store that fails at the third access: two of the six values of the new keys are there, and the error is reported
example : ((persistF byteKeys (fun n => n == 2) (toyPart 1) ⟨⟨fun _ => none, []⟩, 0⟩).1 = .err .storage) ∧
    (persistF byteKeys (fun _ => false) (toyPart 1) ⟨⟨fun _ => none, []⟩, 0⟩).1 = .ok () := by
  refine ⟨((C155_persist byteKeys_good _ _ (toyPart_ok 1) _).2.2 ?_).1,
    (C155_persist byteKeys_good _ _ (toyPart_ok 1) _).1.2 (by simp)⟩
  rw [Ne, (C155_persist byteKeys_good _ _ (toyPart_ok 1) _).1]
  intro h
  exact absurd (h 2 (by decide)) (by simp)

/-- A medium on which the toy key was stored. -/
def toyMedium : Medium := ⟨⟨toyStore 1, []⟩, 0⟩

theorem toyMedium_crash (s : Store) (h : AfterCrash toyMedium.disk s) : s = toyStore 1 := by
  obtain ⟨k, rfl⟩ := h
  simp [toyMedium, Store.inserts]

theorem toyMedium_holds : Holds byteKeys toyMedium.disk.visible (toyPart 1) := by
  have := toyStore_holds 1
  simpa [toyMedium, Disk.visible, Store.inserts] using this

/-- A case of `C155_new_parent` and `C155_import`: a storage that works, and one whose second flush fails. -/
example : (∀ s, AfterCrash (persistNewParentF (fun _ => false) { toyPart 1 with parent := List.replicate 32 5 } toyMedium).2.disk s →
      restore byteKeys s = .ok { toyPart 1 with parent := List.replicate 32 5 }) ∧
    (persistNewParentF (fun n => n == 1) { toyPart 1 with parent := List.replicate 32 5 } toyMedium).1 = .err .storage := by
  obtain ⟨h1, h2, _⟩ := C155_new_parent byteKeys_good (fun _ => false) (toyPart 1) { toyPart 1 with parent := List.replicate 32 5 }
    (toyPart_ok 1) (by simp) toyMedium toyMedium_holds
  obtain ⟨g1, _, g3⟩ := C155_new_parent byteKeys_good (fun n => n == 1) (toyPart 1) { toyPart 1 with parent := List.replicate 32 5 }
    (toyPart_ok 1) (by simp) toyMedium toyMedium_holds
  exact ⟨h2 (h1.2 ⟨rfl, rfl⟩), g3 fun h => by have := (g1.1 h).2; exact absurd this (by decide)⟩

example : byteKeys.skOf (List.replicate 64 5) = some (5 : UInt8) := rfl

/-- A case of `C155_import`. -/
example (b : Bytes) (sk : byteScheme.Sk) (hb : byteKeys.skOf b = some sk) :
    (importRootF byteKeys (fun _ => false) b toyMedium).1 = .ok sk ∧
    (importRootF byteKeys (fun n => n == 1) b toyMedium).1 = .err .storage :=
  ⟨((C155_import byteKeys_good (fun _ => false) b sk hb toyMedium).1 rfl rfl).1,
    (C155_import byteKeys_good (fun n => n == 1) b sk hb toyMedium).2 (.inr rfl)⟩

/-- A case of `C155_generate_partial` and `C155_generate_violated`: keys for rounds 1 to 20 with dilution 10. -/
example (master : byteScheme.Sk) (eph : Nat → byteScheme.Sk) (seed : Bytes) :
    (∃ p, (fillDbF toyOtsEnc byteKeys Verif.Props.toyCurve (fun _ => false) master eph seed (List.replicate 32 5) 1 20 10 toyMedium).1 = .ok p) ∧
    (fillDbF toyOtsEnc byteKeys Verif.Props.toyCurve (fun n => n == 4) master eph seed (List.replicate 32 5) 1 20 10 toyMedium).1 = .panic := by
  refine ⟨?_, C155_generate_violated byteKeys_good _ _ _ _ _ _ _ _ _ _ (by decide) (by decide) (by decide) _ ⟨4, by decide, rfl⟩⟩
  obtain ⟨p, _, h, _⟩ := C155_generate_partial byteKeys_good toyOtsEnc toyCurve (fun _ => false) master eph seed
    (List.replicate 32 5) 1 20 10 (by decide) (by decide) (by decide) toyMedium (fun _ _ => rfl)
  exact ⟨p, h⟩

/-- A case of `C156_returns` and `C156_participation_partial`: a deletion whose flush fails. -/
example (fresh : Nat → byteScheme.Sk) : ∃ q r m', deleteOldKeysF toyOtsEnc byteKeys (fun n => n == 1) (toyPart 1) 3 10 fresh toyMedium =
      .ok (q, r, m') ∧ r = .err .storage ∧ ∀ s, AfterCrash m'.disk s → restore byteKeys s = .ok (toyPart 1) ∨ restore byteKeys s = .ok q := by
  obtain ⟨h1, h2⟩ := C156_returns toyOtsEnc byteKeys (fun n => n == 1) (toyPart 1) 3 10 fresh toyMedium (by decide)
  cases h : deleteOldKeysF toyOtsEnc byteKeys (fun n => n == 1) (toyPart 1) 3 10 fresh toyMedium with
  | panic =>
    have := h1.1 h
    simp [toyPart, u64Lim] at this
  | err e => exact absurd h (h2 e)
  | ok x =>
    obtain ⟨q, r, m'⟩ := x
    have hr : ∀ s, AfterCrash toyMedium.disk s → restore byteKeys s = .ok (toyPart 1) := fun s hs => by
      rw [toyMedium_crash s hs]
      exact C28_roundtrip byteKeys_good _ (toyPart 1) (toyPart_ok 1)
    obtain ⟨_, h4, _, h6⟩ := C156_participation_partial byteKeys_good emptyInvalid_byte ⟨(0 : UInt8)⟩ (fun n => n == 1) (toyPart 1) q 3 10
      fresh r toyMedium m' (toyPart_ok 1) (by decide) (by decide) (toyPart_certified 1) toyMedium_holds hr h
    have hne : r ≠ .ok () := fun hc => absurd (h4.1 hc).2 (by decide)
    exact ⟨q, r, m', rfl, h6 hne⟩

end Verif.Props
