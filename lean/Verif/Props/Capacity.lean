import Verif.Props.Dilution
import Verif.Model.Capacity
/-!
# C183: memory reserved in advance
-/

namespace Verif.Props
open Verif Verif.Multisig Verif.Ots Verif.Account Verif.Algokey Verif.Double

theorem genLoop_total {S : Scheme} (E : Enc) (master : S.Sk) (eph : Nat → S.Sk) (start : Nat) :
    ∀ n i, start + i + n ≤ u64Lim → ∃ l, genLoop S E master eph start i n = .ok l
  | 0, _, _ => ⟨[], rfl⟩
  | n + 1, i, h => by
    obtain ⟨l, e⟩ := genLoop_total E master eph start n (i + 1) (by omega)
    have hb : addU64 (ε := Unit) start i = .ok (start + i) := by rw [addU64, if_pos (by omega)]
    exact ⟨_, by rw [genLoop, hb, Res.ok_bind, e, Res.ok_bind]; rfl⟩

/-- The number of batch keys of an interval of rounds. -/
def batchCount (first last d : Nat) : Nat := last / d - first / d + 1

section
variable {G : Type} [AddCommGroup G] {S : Scheme} (K : Keys S) (E : Enc) (C : Vrf.Curve G) (master : S.Sk)
  (eph : Nat → S.Sk) (seed : Bytes)

theorem fillDb_cap {mem size first last d : Nat} (parent : Bytes) (h : first ≤ last) (hl : last < u64Lim) (hd : 0 < d) :
    (batchCount first last d < u64Lim ∧ size * batchCount first last d ≤ mem ∧
      ∃ p, Capacity.fillDb mem size E K C master eph seed parent first last d = .ok p ∧
        fillDb E K C master eph seed parent first last d = .ok p) ∨
    ((u64Lim ≤ batchCount first last d ∨ mem < size * batchCount first last d) ∧
      Capacity.fillDb mem size E K C master eph seed parent first last d = .panic) := by
  have h1 : first / d ≤ last / d := Nat.div_le_div_right h
  have h2 : last / d ≤ last := Nat.div_le_self _ _
  simp only [batchCount]
  simp only [Capacity.fillDb, fillDb, if_neg (not_lt.2 h), roundId_ok _ _ hd, Res.ok_bind, subU, if_pos h1, addU64]
  by_cases hb : last / d - first / d + 1 < u64Lim
  · simp only [if_pos hb, Res.ok_bind, Capacity.generate, Capacity.reserve]
    by_cases hm : size * (last / d - first / d + 1) ≤ mem
    · obtain ⟨l, e⟩ := genLoop_total E master eph (first / d) (last / d - first / d + 1) 0 (by omega)
      refine .inl ⟨hb, hm, ?_⟩
      simp only [if_pos hm, Res.ok_bind, Ots.generate, e, Res.pure_eq]
      exact ⟨_, rfl, rfl⟩
    · exact .inr ⟨.inr (not_le.1 hm), by simp only [if_neg hm]; rfl⟩
  · exact .inr ⟨.inl (not_lt.1 hb), by simp only [if_neg hb]; rfl⟩

/-- **C183**: generating participation keys crashes exactly if the dilution is zero or there is no memory for the batch keys
of the interval (`size` bytes each). -/
theorem C183_crash_iff {mem size : Nat} (hmem : Capacity.Mem mem) (hsize : 0 < size) (first last d : Nat) (hl : last < u64Lim)
    (parent : Bytes) :
    Capacity.fillDb mem size E K C master eph seed parent first last d = .panic ↔
      first ≤ last ∧ (d = 0 ∨ mem < size * (last / d - first / d + 1)) := by
  rcases Nat.lt_or_ge last first with h | h
  · rw [Capacity.fillDb, if_pos h]
    exact ⟨fun e => (by cases e), fun e => by omega⟩
  rcases Nat.eq_zero_or_pos d with rfl | hd
  · exact ⟨fun _ => ⟨h, .inl rfl⟩, fun _ => by rw [Capacity.fillDb, if_neg (not_lt.2 h), roundId_zero]; rfl⟩
  rcases fillDb_cap K E C master eph seed (mem := mem) (size := size) parent h hl hd with ⟨_, h1, p, e, _⟩ | ⟨h1, e⟩
  · rw [e]
    refine ⟨fun e => (by cases e), fun e => ?_⟩
    simp only [batchCount] at h1
    omega
  · refine ⟨fun _ => ⟨h, .inr ?_⟩, fun _ => e⟩
    rcases h1 with h1 | h1
    · have := Nat.le_mul_of_pos_left (batchCount first last d) hsize
      simp only [Capacity.Mem, batchCount, u64Lim] at *
      omega
    · exact h1

/-- **C183**: if it does not crash, the result is that of the model without limits of memory (so that C27 holds for it). -/
theorem C183_same {mem size : Nat} (first last d : Nat) (hl : last < u64Lim) (parent : Bytes)
    (h : Capacity.fillDb mem size E K C master eph seed parent first last d ≠ .panic) :
    Capacity.fillDb mem size E K C master eph seed parent first last d = fillDb E K C master eph seed parent first last d := by
  rcases Nat.lt_or_ge last first with h1 | h1
  · rw [Capacity.fillDb, fillDb, if_pos h1, if_pos h1]
  rcases Nat.eq_zero_or_pos d with rfl | hd
  · exact absurd (by rw [Capacity.fillDb, if_neg (not_lt.2 h1), roundId_zero]; rfl) h
  rcases fillDb_cap K E C master eph seed (mem := mem) (size := size) parent h1 hl hd with ⟨_, _, p, e, e'⟩ | ⟨_, e⟩
  · rw [e, e']
  · exact absurd e h

/-- **C183** is false for long intervals and small dilutions: with one key per round (the smallest positive dilution), an
interval of 2^63 rounds crashes on every machine. -/
theorem C183_violated {mem size : Nat} (hmem : Capacity.Mem mem) (hsize : 0 < size) (first : Nat) (hf : first + 2 ^ 63 ≤ u64Lim)
    (parent : Bytes) :
    Capacity.fillDb mem size E K C master eph seed parent first (first + (2 ^ 63 - 1)) 1 = .panic := by
  rw [C183_crash_iff K E C master eph seed hmem hsize _ _ _ (by omega)]
  refine ⟨Nat.le_add_right _ _, .inr ?_⟩
  rw [Nat.div_one, Nat.div_one, Nat.add_sub_cancel_left, Nat.sub_add_cancel (by norm_num)]
  have := Nat.le_mul_of_pos_left (2 ^ 63) hsize
  simp only [Capacity.Mem] at hmem
  omega

/-- **C183** for the command line: with the default dilution the keys of every interval need less memory than 2^32 + 3 batch
keys; if the machine has that much, nothing crashes and the result is that of C114. -/
theorem C183_default_dilution_partial {mem size : Nat} (hroom : size * (2 ^ 32 + 3) ≤ mem) (hash : Bytes → Bytes)
    (first last : Nat) (h : first ≤ last) (hl : last < u64Lim) (parent a : Bytes) (ha : Address.fromStr hash parent = .ok a)
    (keyfile : Text) (s : Store) :
    Capacity.partGenerate mem size hash E K C master eph seed first last 0 parent s =
      partGenerate hash E K C master eph seed keyfile first last 0 parent s ∧
    (Capacity.partGenerate mem size hash E K C master eph seed first last 0 parent s).exit = .done := by
  obtain ⟨d, hd, h1, h2⟩ := C113_every_interval first last h hl
  have h3 := C113_every_batches first last d h hl hd
  have h4 : Nat.sqrt (last - first) < 2 ^ 32 := by
    rw [Nat.sqrt_lt]; rw [u64Lim] at hl; exact lt_of_lt_of_le (by omega) (le_refl (2 ^ 32 * 2 ^ 32))
  have h5 : batchCount first last d ≤ 2 ^ 32 + 3 := by simp only [batchCount]; omega
  simp only [Capacity.partGenerate, partGenerate, hd, ha]
  rcases fillDb_cap K E C master eph seed (mem := mem) (size := size) a h hl (d := d) (by omega) with
    ⟨_, _, p, e, e'⟩ | ⟨h6, _⟩
  · rw [e, e']
    exact ⟨rfl, rfl⟩
  · have := Nat.mul_le_mul_left size h5
    simp only [u64Lim] at h6
    omega

/-- **C183** for a given dilution: one that is at least four times the size of a batch key in bytes (as is the one of all
protocol versions, 10000) never asks for more than can be addressed, whatever the interval. -/
theorem C183_large_dilution_partial {size : Nat} (h0 : size ≤ 2 ^ 61) (first last d : Nat)
    (hl : last < u64Lim) (hd : 4 * size ≤ d) : size * (last / d - first / d + 1) < 2 ^ 63 := by
  have h1 : size * (last / d - first / d) ≤ 2 ^ 62 := by
    have h2 : 4 * (size * (last / d - first / d)) ≤ 2 ^ 64 := by
      calc 4 * (size * (last / d - first / d)) ≤ d * (last / d) := by
            rw [← Nat.mul_assoc]; exact Nat.mul_le_mul hd (Nat.sub_le _ _)
        _ ≤ last := Nat.mul_div_le _ _
        _ ≤ 2 ^ 64 := by rw [u64Lim] at hl; exact hl.le
    omega
  rw [Nat.mul_add]
  omega

/-- **C183**: a crash stores nothing. -/
theorem C183_crash_stores_nothing {mem size : Nat} (hash : Bytes → Bytes) (first last dilution : Nat) (parent : Bytes)
    (s : Store) (h : (Capacity.partGenerate mem size hash E K C master eph seed first last dilution parent s).exit ≠ .done) :
    (Capacity.partGenerate mem size hash E K C master eph seed first last dilution parent s).store = s := by
  revert h
  simp only [Capacity.partGenerate]
  split
  · split
    · split
      · exact fun h => absurd rfl h
      · exact fun _ => rfl
      · exact fun _ => rfl
    · exact fun _ => rfl
  · exact fun _ => rfl

end

/-- **C183** for batch verifiers: the capacity asked for decides only whether the call crashes, never what is verified. -/
theorem C183_batch_verifier {mem : Nat} (z : Capacity.Sizes) (capacity : Nat) :
    (Capacity.withCapacity mem z capacity = .panic ↔
      mem < max z.message (max z.key z.signature) * max capacity 16) ∧
    (∀ b, Capacity.withCapacity mem z capacity = .ok b → b.numSigsEnqued = 0 ∧
      ∀ S ts, (ts.foldl (fun b t => b.enqueSig t.1 t.2.1 t.2.2) b).verify S = (enqueueAll ts).verify S) := by
  have key : Capacity.withCapacity mem z capacity =
      if max z.message (max z.key z.signature) * max capacity 16 ≤ mem then .ok BatchVerifier.new else .panic := by
    simp only [Capacity.withCapacity, Capacity.reserve, ← Nat.mul_max_mul_right, Nat.max_le]
    generalize max capacity 16 = c
    by_cases h1 : z.message * c ≤ mem <;> by_cases h2 : z.key * c ≤ mem <;> by_cases h3 : z.signature * c ≤ mem <;>
      simp only [h1, h2, h3, if_true, if_false, and_true, and_false] <;> rfl
  rw [key]
  split
  · refine ⟨⟨fun e => (by cases e), fun e => by omega⟩, ?_⟩
    intro b e
    injection e with e; subst e
    exact ⟨rfl, fun _ _ => rfl⟩
  · exact ⟨⟨fun _ => by omega, fun _ => rfl⟩, fun b e => (by cases e)⟩

/-- **C183**: a capacity of 2^63 crashes on every machine, the default one on none with room for 16 signatures. -/
theorem C183_batch_verifier_violated {mem : Nat} (hmem : Capacity.Mem mem) (z : Capacity.Sizes) (hz : 0 < z.signature) :
    Capacity.withCapacity mem z (2 ^ 63) = .panic ∧
    (max z.message (max z.key z.signature) * 16 ≤ mem → Capacity.defaultVerifier mem z = .ok BatchVerifier.new) := by
  refine ⟨((C183_batch_verifier z _).1).2 ?_, fun h => ?_⟩
  · have : 1 ≤ max z.message (max z.key z.signature) := le_trans hz (le_trans (Nat.le_max_right _ _) (Nat.le_max_right _ _))
    have := Nat.le_mul_of_pos_left (max (2 ^ 63) 16) this
    have e : max (2 ^ 63) 16 = 2 ^ 63 := by norm_num
    simp only [Capacity.Mem] at hmem
    omega
  · cases hc : Capacity.defaultVerifier mem z with
    | ok b =>
      rw [Capacity.defaultVerifier, Capacity.withCapacity] at hc
      obtain ⟨_, _, hc⟩ := Res.bind_eq_ok.1 hc
      obtain ⟨_, _, hc⟩ := Res.bind_eq_ok.1 hc
      obtain ⟨_, _, hc⟩ := Res.bind_eq_ok.1 hc
      exact hc.symm
    | err e => exact e.elim
    | panic =>
      have := ((C183_batch_verifier (mem := mem) z 16).1).1 hc
      rw [Nat.max_self] at this
      omega

/-- The case of the theorems: 300 bytes for a key, sixteen gigabytes, the parameters of the test network. -/
example : Capacity.Mem (2 ^ 34) ∧ 300 * (3000000 / 10000 - 0 / 10000 + 1) ≤ 2 ^ 34 ∧ 4 * 300 ≤ 10000 ∧
    300 * (2 ^ 32 + 3) ≤ 2 ^ 41 := by
  simp only [Capacity.Mem]; norm_num

/-- A case of `C183_crash_iff` and `C183_same`: three million rounds with 16 GiB, dilution 10000 and dilution zero. -/
example {G : Type} [AddCommGroup G] {S : Scheme} (K : Keys S) (E : Enc) (C : Vrf.Curve G) (master : S.Sk) (eph : Nat → S.Sk)
    (seed parent : Bytes) :
    Capacity.fillDb (2 ^ 34) 300 E K C master eph seed parent 0 3000000 10000 = fillDb E K C master eph seed parent 0 3000000 10000 ∧
    Capacity.fillDb (2 ^ 34) 300 E K C master eph seed parent 0 3000000 0 = .panic := by
  have hm : Capacity.Mem (2 ^ 34) := by simp only [Capacity.Mem]; norm_num
  refine ⟨C183_same K E C master eph seed 0 3000000 10000 (by norm_num [u64Lim]) parent fun h => ?_,
    (C183_crash_iff K E C master eph seed hm (by norm_num) 0 3000000 0 (by norm_num [u64Lim]) parent).2 ⟨by norm_num, .inl rfl⟩⟩
  have := (C183_crash_iff K E C master eph seed hm (by norm_num) 0 3000000 10000 (by norm_num [u64Lim]) parent).1 h
  norm_num at this

/-- A case of `C183_violated`: all rounds from 5 on, to 2^63 + 4. -/
example {G : Type} [AddCommGroup G] {S : Scheme} (K : Keys S) (E : Enc) (C : Vrf.Curve G) (master : S.Sk) (eph : Nat → S.Sk)
    (seed parent : Bytes) : Capacity.fillDb (2 ^ 34) 300 E K C master eph seed parent 5 (5 + (2 ^ 63 - 1)) 1 = .panic :=
  C183_violated K E C master eph seed (by simp only [Capacity.Mem]; norm_num) (by norm_num) 5 (by norm_num [u64Lim]) parent

/-- A case of `C183_default_dilution_partial`: two tebibytes are enough for every interval. -/
example {G : Type} [AddCommGroup G] {S : Scheme} (K : Keys S) (E : Enc) (C : Vrf.Curve G) (master : S.Sk) (eph : Nat → S.Sk)
    (seed : Bytes) (hash : Bytes → Bytes) (parent a : Bytes) (ha : Address.fromStr hash parent = .ok a) (s : Store) :
    (Capacity.partGenerate (2 ^ 41) 300 hash E K C master eph seed 7 (2 ^ 64 - 2) 0 parent s).exit = .done :=
  (C183_default_dilution_partial K E C master eph seed (by norm_num) hash 7 (2 ^ 64 - 2) (by norm_num) (by norm_num [u64Lim])
    parent a ha [] s).2

/-- A case of `C183_large_dilution_partial`. -/
example : 300 * ((2 ^ 64 - 1) / 1200 - 0 / 1200 + 1) < 2 ^ 63 :=
  C183_large_dilution_partial (size := 300) (by norm_num) 0 (2 ^ 64 - 1) 1200 (by norm_num [u64Lim]) (by norm_num)

end Verif.Props
