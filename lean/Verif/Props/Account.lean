import Verif.Model.Account
import Verif.Lemmas.CodecFits
import Verif.Props.Ots
import Verif.Props.Vrf
import Mathlib.Data.List.Forall2
import Mathlib.Tactic.ByContra
/-!
# Properties of participation keys (C27-C29)
-/

namespace Verif.Props
open Verif Verif.Ots Verif.Multisig Verif.Codec Verif.Msgpack Verif.Balance Verif.Account

/-! ## Stored values -/

/-- What is used about the signature library: signatures verify, keys and signatures have their sizes, are accepted
when read back, a key pair is read back from its 64 bytes and from nothing of another length. -/
structure GoodKeys {S : Scheme} (K : Keys S) : Prop where
  correct : ∀ sk m, S.verify (S.pub sk) m (S.sign sk m) = true
  pub_len : ∀ sk, (S.pub sk).length = 32
  pub_ok : ∀ sk, K.lib.validPk (S.pub sk) = true
  default_ok : K.lib.validPk defaultPk = true
  sign_len : ∀ sk m, (S.sign sk m).length = 64
  sign_ok : ∀ sk m, K.lib.validSig (S.sign sk m) = true
  zero_ok : K.lib.validSig zeroSig = true
  sk_len : ∀ b sk, K.skOf b = some sk → b.length = 64
  sk_back : ∀ sk, K.skOf (K.skBytes sk) = some sk

/-- The subkeys have signatures that can be read back, and there are fewer than `2^32` of them. -/
def SubkeysOk {S : Scheme} (K : Keys S) (l : List (Subkey S)) : Prop :=
  l.length < u32Lim ∧ ∀ k ∈ l, k.pkSig.length = 64 ∧ K.lib.validSig k.pkSig = true

/-- The fields of the voting secrets have the sizes of their Rust types. -/
structure SecretsOk {S : Scheme} (K : Keys S) (s : Secrets S) : Prop where
  verifier : s.verifier.length = 32 ∧ K.lib.validPk s.verifier = true
  firstBatch : s.firstBatch < u64Lim
  batches : SubkeysOk K s.batches
  firstOffset : s.firstOffset < u64Lim
  offsets : SubkeysOk K s.offsets
  pk2 : s.offsetsPk2.length = 32 ∧ K.lib.validPk s.offsetsPk2 = true
  pk2Sig : s.offsetsPk2Sig.length = 64 ∧ K.lib.validSig s.offsetsPk2Sig = true

/-- The fields of a participation have the sizes of their Rust types. -/
structure PartOk {S : Scheme} (K : Keys S) (p : Participation S) : Prop where
  parent : p.parent.length = 32
  vrfPriv : p.vrf.priv.length = 32
  vrfPub : p.vrf.pub.length = 32
  voting : SecretsOk K p.voting
  firstValid : p.firstValid < u64Lim
  lastValid : p.lastValid < u64Lim
  keyDilution : p.keyDilution < u64Lim

theorem keypair_len {S : Scheme} {K : Keys S} (hK : GoodKeys K) (sk : S.Sk) : (K.skBytes sk).length = 64 :=
  hK.sk_len _ _ (hK.sk_back sk)

theorem fits_bytes {b : Bytes} (h : b.length < u32Lim) : (bytesArr b).Fits := by
  refine fits_arr (by simpa using h) ?_
  intro a ha
  obtain ⟨x, _, rfl⟩ := List.mem_map.1 ha
  have := x.toNat_lt
  exact fits_uint (by simp only [u64Lim]; omega)

theorem subkeys_fit {S : Scheme} {K : Keys S} (hK : GoodKeys K) {l : List (Subkey S)} (h : SubkeysOk K l) :
    (MP.arr (l.map (subkeyMP K))).Fits := by
  refine fits_arr (by simpa using h.1) ?_
  intro a ha
  obtain ⟨k, hk, rfl⟩ := List.mem_map.1 ha
  refine fits_arr (by simp [u32Lim]) ?_
  intro b hb
  simp only [List.mem_cons, List.not_mem_nil, or_false] at hb
  rcases hb with rfl | rfl
  · exact fits_bin (by rw [keypair_len hK]; decide)
  · exact fits_bytes (by rw [(h.2 k hk).1]; decide)

theorem subkeys_back {S : Scheme} {K : Keys S} (hK : GoodKeys K) {l : List (Subkey S)} (h : SubkeysOk K l) :
    decVec (decSubkey K) (.arr (l.map (subkeyMP K))) = some l := by
  refine decVec_map _ _ l ?_
  intro k hk
  simp only [subkeyMP, decSubkey, decKeypair, hK.sk_back, decSig_bytesArr (h.2 k hk)]
  rfl

theorem secrets_back {S : Scheme} {K : Keys S} (hK : GoodKeys K) {s : Secrets S} (h : SecretsOk K s) :
    (decode (enc (secretsMP K s))).bind (fun p => decSecrets K p.1) = some s := by
  have hf : (secretsMP K s).Fits := by
    refine fits_arr (by simp [u32Lim]) ?_
    intro a ha
    simp only [List.mem_cons, List.not_mem_nil, or_false] at ha
    rcases ha with rfl | rfl | rfl | rfl | rfl | rfl | rfl | rfl
    · exact fits_bin (by rw [h.verifier.1]; decide)
    · exact fits_uint h.firstBatch
    · exact subkeys_fit hK h.batches
    · exact fits_uint h.firstOffset
    · exact subkeys_fit hK h.offsets
    · exact fits_bin (by rw [h.pk2.1]; decide)
    · exact fits_bytes (by rw [h.pk2Sig.1]; decide)
    · exact fits_nil
  have := decode_enc (secretsMP K s) [] hf
  rw [List.append_nil] at this
  rw [this]
  simp only [Option.bind_some, secretsMP, decSecrets, subkeys_back hK h.batches, subkeys_back hK h.offsets,
    decPk_bin _ _ h.verifier.1 h.verifier.2, decPk_bin _ _ h.pk2.1 h.pk2.2, decSig_bytesArr h.pk2Sig,
    decUint, if_pos h.firstBatch, if_pos h.firstOffset]
  rfl

theorem vrf_back {k : Vrf.Keypair} (h1 : k.priv.length = 32) (h2 : k.pub.length = 32) :
    (decode (enc (vrfMP k))).bind (fun p => decVrf p.1) = some k := by
  have hf : (vrfMP k).Fits := by
    refine fits_arr (by simp [u32Lim]) ?_
    intro a ha
    simp only [List.mem_cons, List.not_mem_nil, or_false] at ha
    rcases ha with rfl | rfl
    · exact fits_bytes (by rw [h1]; decide)
    · exact fits_bytes (by rw [h2]; decide)
  have := decode_enc (vrfMP k) [] hf
  rw [List.append_nil] at this
  rw [this]
  simp [vrfMP, decVrf, decArr_bytesArr, h1, h2]

/-- The store holds exactly what `persist` writes for this participation. -/
def Holds {S : Scheme} (K : Keys S) (s : Store) (p : Participation S) : Prop := ∀ e ∈ persist K p, s e.1 = some e.2

theorem restore_of {S : Scheme} {K : Keys S} (hK : GoodKeys K) {s : Store} {parent first last dil : Bytes}
    {vrf : Vrf.Keypair} {voting : Secrets S} (h1 : s .parent = some parent) (h2 : s .vrf = some (enc (vrfMP vrf)))
    (h3 : s .voting = some (enc (secretsMP K voting))) (h4 : s .firstValid = some first) (h5 : s .lastValid = some last)
    (h6 : s .keyDilution = some dil) (l1 : parent.length = 32) (l2 : vrf.priv.length = 32) (l3 : vrf.pub.length = 32)
    (l4 : SecretsOk K voting) (l5 : first.length = 8) (l6 : last.length = 8) (l7 : dil.length = 8) :
    restore K s = .ok ⟨parent, vrf, voting, ofBE first, ofBE last, ofBE dil⟩ := by
  simp only [restore, h1, h2, h3, h4, h5, h6, Res.ofOption_some, Res.ok_bind, exactLen, l1, l5, l6, l7, if_true,
    vrf_back l2 l3, secrets_back hK l4, orDecodeError]

theorem restore_holds {S : Scheme} {K : Keys S} (hK : GoodKeys K) {s : Store} {p : Participation S} (hp : PartOk K p)
    (h : Holds K s p) : restore K s = .ok p := by
  simp only [Holds, persist, List.mem_cons, List.not_mem_nil, or_false, forall_eq_or_imp, forall_eq] at h
  rw [restore_of hK h.1 h.2.1 h.2.2.1 h.2.2.2.1 h.2.2.2.2.1 h.2.2.2.2.2 hp.parent hp.vrfPriv hp.vrfPub hp.voting
    (beBytes_len 8 _) (beBytes_len 8 _) (beBytes_len 8 _), ofBE_beBytes 8 _ hp.firstValid, ofBE_beBytes 8 _ hp.lastValid,
    ofBE_beBytes 8 _ hp.keyDilution]
  rfl

/-- C28: persisted participation keys are restored, whatever was stored before. -/
theorem C28_roundtrip {S : Scheme} {K : Keys S} (hK : GoodKeys K) (s : Store) (p : Participation S) (hp : PartOk K p) :
    restore K (s.inserts (persist K p)) = .ok p := by
  refine restore_holds hK hp ?_
  simp [Holds, persist, Store.inserts, Store.insert]

/-- The participation made of the first `k` fields of one and the remaining fields of another, in the order in which
`persist` writes them. -/
def mixed {S : Scheme} (k : Nat) (new old : Participation S) : Participation S :=
  ⟨if 0 < k then new.parent else old.parent, if 1 < k then new.vrf else old.vrf,
    if 2 < k then new.voting else old.voting, if 3 < k then new.firstValid else old.firstValid,
    if 4 < k then new.lastValid else old.lastValid, if 5 < k then new.keyDilution else old.keyDilution⟩

/-- C28, the part that holds: after a crash in the middle of persisting new keys over old ones, restoring gives a
participation whose every field is the old or the new one; with nothing or everything written it is the old or the new
participation. Missing: it should be one of the two whatever the crash point. -/
theorem C28_crash_partial {S : Scheme} {K : Keys S} (hK : GoodKeys K) (s : Store) (old new : Participation S)
    (ho : PartOk K old) (hn : PartOk K new) (h : Holds K s old) (k : Nat) :
    restore K (s.inserts ((persist K new).take k)) = .ok (mixed k new old) ∧
    mixed 0 new old = old ∧ (6 ≤ k → mixed k new old = new) := by
  refine ⟨?_, rfl, ?_⟩
  · have hm : PartOk K (mixed k new old) := by
      constructor <;> simp only [mixed] <;> split
      · exact hn.parent
      · exact ho.parent
      · exact hn.vrfPriv
      · exact ho.vrfPriv
      · exact hn.vrfPub
      · exact ho.vrfPub
      · exact hn.voting
      · exact ho.voting
      · exact hn.firstValid
      · exact ho.firstValid
      · exact hn.lastValid
      · exact ho.lastValid
      · exact hn.keyDilution
      · exact ho.keyDilution
    refine restore_holds hK hm ?_
    simp only [Holds, persist, List.mem_cons, List.not_mem_nil, or_false, forall_eq_or_imp, forall_eq] at h
    have hk : k = 0 ∨ k = 1 ∨ k = 2 ∨ k = 3 ∨ k = 4 ∨ k = 5 ∨ 6 ≤ k := by omega
    rcases hk with rfl | rfl | rfl | rfl | rfl | rfl | hk
    iterate 6 simp [Holds, persist, Store.inserts, Store.insert, mixed, h]
    have : (persist K new).take k = persist K new := List.take_of_length_le (by simpa [persist] using hk)
    rw [this]
    simp [Holds, persist, Store.inserts, Store.insert, mixed, show 0 < k by omega, show 1 < k by omega,
      show 2 < k by omega, show 3 < k by omega, show 4 < k by omega, show 5 < k by omega]
  · intro hk
    simp [mixed, show 0 < k by omega, show 1 < k by omega, show 2 < k by omega, show 3 < k by omega,
      show 4 < k by omega, show 5 < k by omega]

/-- Example scheme with the right sizes: keys are bytes, a signature is the key repeated. -/
def byteScheme : Scheme where
  Sk := UInt8
  pub := fun k => List.replicate 32 k
  sign := fun k _ => List.replicate 64 k
  verify := fun pk _ s => pk != defaultPk && s == pk ++ pk

/-- Its key bytes. -/
def byteKeys : Keys byteScheme where
  lib := ⟨fun _ => true, fun _ => true, true⟩
  skBytes := fun (k : UInt8) => List.replicate 64 k
  skOf := fun b => if b.length = 64 then some (b.headD 0) else none

theorem byteKeys_good : GoodKeys byteKeys where
  correct := by
    intro (sk : UInt8) m
    have h : (List.replicate 32 sk : Bytes) ≠ defaultPk := by
      intro h
      have h1 := congrArg (fun l : Bytes => l[0]?) h
      have h2 := congrArg (fun l : Bytes => l[1]?) h
      simp [defaultPk] at h1 h2
      simp [h1] at h2
    show (List.replicate 32 sk != defaultPk && List.replicate 64 sk == List.replicate 32 sk ++ List.replicate 32 sk) = true
    rw [List.replicate_append_replicate, Bool.and_eq_true, bne_iff_ne]
    exact ⟨h, beq_self_eq_true _⟩
  pub_len := fun sk => List.length_replicate
  pub_ok := fun _ => rfl
  default_ok := rfl
  sign_len := fun sk m => List.length_replicate
  sign_ok := fun _ _ => rfl
  zero_ok := rfl
  sk_len := by
    intro b sk h
    have h' : (if b.length = 64 then some (b.headD 0) else none) = some sk := h
    by_contra hb
    rw [if_neg hb] at h'
    cases h'
  sk_back := by
    intro (sk : UInt8)
    show (if (List.replicate 64 sk).length = 64 then some ((List.replicate 64 sk).headD 0) else none) = some sk
    rw [if_pos List.length_replicate]
    rfl

/-- An example participation for rounds 0 to 9 with one batch key. -/
def toyPart (x : UInt8) : Participation byteScheme :=
  ⟨List.replicate 32 x, ⟨List.replicate 32 x, List.replicate 32 x⟩,
    ⟨List.replicate 32 x, 0, [⟨x, List.replicate 64 x⟩], 0, [], defaultPk, zeroSig⟩, 0, 9, 10⟩

theorem toyPart_ok (x : UInt8) : PartOk byteKeys (toyPart x) where
  parent := List.length_replicate
  vrfPriv := List.length_replicate
  vrfPub := List.length_replicate
  voting := by
    refine ⟨⟨List.length_replicate, rfl⟩, show 0 < u64Lim by decide, ⟨show 1 < u32Lim by decide, ?_⟩,
      show 0 < u64Lim by decide, ⟨show 0 < u32Lim by decide, by simp [toyPart]⟩,
      ⟨show defaultPk.length = 32 by decide, rfl⟩, ⟨List.length_replicate, rfl⟩⟩
    intro k hk
    simp only [toyPart, List.mem_singleton] at hk
    subst hk
    exact ⟨List.length_replicate, rfl⟩
  firstValid := show 0 < u64Lim by decide
  lastValid := show 9 < u64Lim by decide
  keyDilution := show 10 < u64Lim by decide

-- the hypotheses of the round trip and of the crash theorem are met by these keys
example : restore byteKeys (Store.inserts (fun _ => none) (persist byteKeys (toyPart 1))) = .ok (toyPart 1) :=
  C28_roundtrip byteKeys_good _ _ (toyPart_ok 1)

/-- C28 fails: a crash after the first insert leaves the old secrets under the new parent, which is neither the old nor
the new participation. -/
theorem C28_violated : ∃ (s : Store) (old new : Participation byteScheme) (k : Nat) (p : Participation byteScheme),
    restore byteKeys s = .ok old ∧ PartOk byteKeys new ∧
    restore byteKeys (s.inserts ((persist byteKeys new).take k)) = .ok p ∧
    p ≠ old ∧ p ≠ new ∧ p.parent = new.parent ∧ p.voting.verifier = old.voting.verifier ∧
    new.parent ≠ old.parent ∧ new.voting.verifier ≠ old.voting.verifier := by
  have hne : (List.replicate 32 (2 : UInt8)) ≠ List.replicate 32 1 := by decide
  have hold : Holds byteKeys (Store.inserts (fun _ => none) (persist byteKeys (toyPart 1))) (toyPart 1) := by
    simp [Holds, persist, Store.inserts, Store.insert]
  refine ⟨_, toyPart 1, toyPart 2, 1, mixed 1 (toyPart 2) (toyPart 1),
    C28_roundtrip byteKeys_good (fun _ => none) _ (toyPart_ok 1), toyPart_ok 2,
    (C28_crash_partial byteKeys_good _ _ _ (toyPart_ok 1) (toyPart_ok 2) hold 1).1, ?_, ?_, rfl, rfl, hne, hne⟩
  · intro h; exact hne (congrArg Participation.parent h)
  · intro h; exact hne.symm (congrArg (fun p => p.voting.verifier) h)

/-- C28: on an empty store every crash before the last insert makes `restore` panic. -/
theorem C28_first_crash_panics {S : Scheme} {K : Keys S} (hK : GoodKeys K) (p : Participation S) (hp : PartOk K p)
    (s : Store) (hs : ∀ n, n ≠ .root → s n = none) (k : Nat) (hk : k < 6) :
    restore K (s.inserts ((persist K p).take k)) = .panic := by
  have hk : k = 0 ∨ k = 1 ∨ k = 2 ∨ k = 3 ∨ k = 4 ∨ k = 5 := by omega
  have h1 := hs .parent (by decide)
  have h2 := hs .vrf (by decide)
  have h3 := hs .voting (by decide)
  have h4 := hs .firstValid (by decide)
  have h5 := hs .lastValid (by decide)
  have h6 := hs .keyDilution (by decide)
  have hv := secrets_back hK hp.voting
  rcases hk with rfl | rfl | rfl | rfl | rfl | rfl <;>
    simp [restore, persist, Store.inserts, Store.insert, h1, h2, h3, h4, h5, h6, exactLen, hp.parent,
      vrf_back hp.vrfPriv hp.vrfPub, snapshot, hv, orDecodeError, beBytes_len]

/-! ## Signing for rounds -/

/-- The participation produces, for the given round and any message, a signature that verifies under its voting key. -/
def CanSign {S : Scheme} (E : Enc) (p : Participation S) (r : Nat) : Prop :=
  ∀ (msg : Bytes) (fresh : S.Sk), ∃ (id : Ident) (o : OTS), (roundId r p.keyDilution : Res Unit Ident) = .ok id ∧
    sign E p.voting id msg fresh = .ok o ∧ o.verify S E id msg p.voting.verifier = true

theorem roundId_ok {ε : Type} (r d : Nat) (hd : 0 < d) : (roundId r d : Res ε Ident) = .ok ⟨r / d, r % d⟩ := by
  simp [roundId, Units.otsId, divU, modU, Nat.pos_iff_ne_zero.mp hd]

theorem roundId_zero {ε : Type} (r : Nat) : (roundId r 0 : Res ε Ident) = .panic := by
  simp [roundId, Units.otsId, divU]

theorem idLe_rounds (c r d : Nat) (hd : 0 < d) : IdLe ⟨c / d, c % d⟩ ⟨r / d, r % d⟩ ↔ c ≤ r := by
  have e1 := Nat.div_add_mod c d
  have e2 := Nat.div_add_mod r d
  have l1 := Nat.mod_lt c hd
  have l2 := Nat.mod_lt r hd
  simp only [IdLe]
  constructor
  · rintro (h | ⟨h, h'⟩)
    · have : d * (c / d + 1) ≤ d * (r / d) := Nat.mul_le_mul_left d h
      rw [Nat.mul_add, Nat.mul_one] at this
      omega
    · rw [h] at e1; omega
  · intro h
    have hle : c / d ≤ r / d := Nat.div_le_div_right h
    rcases Nat.lt_or_eq_of_le hle with h' | h'
    · exact Or.inl h'
    · right; refine ⟨h', ?_⟩; rw [h'] at e1; omega

/-- The signature returned for missing keys verifies under no key. -/
def EmptyInvalid (S : Scheme) (E : Enc) : Prop := ∀ id msg pk, blankOTS.verify S E id msg pk = false

theorem canSign_iff {S : Scheme} (hS : ∀ sk m, S.verify (S.pub sk) m (S.sign sk m) = true) {E : Enc}
    (hE : EmptyInvalid S E) (hne : Nonempty S.Sk) {p : Participation S} (hc : Certified E p.voting)
    (hd : 0 < p.keyDilution) (hd2 : p.keyDilution < u64Lim) (r : Nat) (hr : r + 1 < u64Lim) :
    CanSign E p r ↔ Signable p.voting ⟨r / p.keyDilution, r % p.keyDilution⟩ := by
  have hb : r / p.keyDilution + 1 < u64Lim := by
    have := Nat.div_le_self r p.keyDilution
    omega
  have ho : r % p.keyDilution + 1 < u64Lim := by
    have := Nat.mod_lt r hd
    omega
  constructor
  · intro h
    by_contra hn
    obtain ⟨fresh⟩ := hne
    obtain ⟨id, o, h1, h2, h3⟩ := h [] fresh
    rw [roundId_ok r _ hd] at h1
    injection h1 with h1
    subst h1
    have := (sign_spec hS E p.voting hc ⟨r / p.keyDilution, r % p.keyDilution⟩ [] fresh hb).2 hn (Or.inl ho)
    rw [this] at h2
    injection h2 with h2
    subst h2
    rw [hE] at h3
    cases h3
  · intro h msg fresh
    obtain ⟨o, h1, h2⟩ := (sign_spec hS E p.voting hc ⟨r / p.keyDilution, r % p.keyDilution⟩ msg fresh hb).1 h
    exact ⟨_, o, roundId_ok r _ hd, h1, h2⟩

/-! ## C27: generated keys -/

theorem fillDb_ok {G : Type} [AddCommGroup G] {S : Scheme} (E : Enc) (K : Keys S) (C : Vrf.Curve G) (master : S.Sk)
    (eph : Nat → S.Sk) (seed parent : Bytes) (first last d : Nat) (h : first ≤ last) (hd : 0 < d)
    (hl : last + 1 < u64Lim) (hS : ∀ sk m, S.verify (S.pub sk) m (S.sign sk m) = true) :
    ∃ p, fillDb E K C master eph seed parent first last d = .ok (p, persist K p) ∧
      p.parent = parent ∧ p.vrf = Vrf.fromSeed C seed ∧ p.firstValid = first ∧ p.lastValid = last ∧
      p.keyDilution = d ∧ p.voting.verifier = S.pub master ∧ Certified E p.voting ∧
      generate S E master eph (first / d) (last / d - first / d + 1) = .ok p.voting ∧
      ∀ id, Signable p.voting id ↔ first / d ≤ id.batch ∧ id.batch ≤ last / d := by
  have h1 : first / d ≤ last / d := Nat.div_le_div_right h
  have h2 := Nat.div_le_self last d
  obtain ⟨st, g1, g2, g3, g4⟩ := generate_spec hS E master eph (first / d) (last / d - first / d + 1) (by omega)
  refine ⟨⟨parent, Vrf.fromSeed C seed, st, first, last, d⟩, ?_, rfl, rfl, rfl, rfl, rfl, g3, g2, g1, ?_⟩
  · rw [fillDb, if_neg (by omega)]
    simp only [roundId_ok _ _ hd, Res.ok_bind, subU, if_pos h1, addU64]
    have h3 := Nat.sub_le (last / d) (first / d)
    rw [if_pos (by omega)]
    simp only [Res.ok_bind, g1]
  · intro id
    rw [g4]
    omega

/-- C27: with a positive dilution key generation succeeds for every interval (that ends below the largest number), the
keys sign for every round of the interval, under the voting key named in the registration transaction, and they are
stored. -/
theorem C27_covers_interval {G : Type} [AddCommGroup G] {S : Scheme} {K : Keys S} (hK : GoodKeys K) (E : Enc)
    (C : Vrf.Curve G) (master : S.Sk) (eph : Nat → S.Sk) (seed parent : Bytes) (first last d : Nat)
    (h : first ≤ last) (hd : 0 < d) (hl : last + 1 < u64Lim) :
    ∃ p, fillDb E K C master eph seed parent first last d = .ok (p, persist K p) ∧
      p.parent = parent ∧ p.firstValid = first ∧ p.lastValid = last ∧ p.keyDilution = d ∧
      ∀ r, first ≤ r → r ≤ last → CanSign E p r := by
  obtain ⟨p, h1, h2, _, h3, h4, h5, h6, h7, _, h8⟩ := fillDb_ok E K C master eph seed parent first last d h hd hl hK.correct
  refine ⟨p, h1, h2, h3, h4, h5, ?_⟩
  intro r r1 r2 msg fresh
  have hb : r / d + 1 < u64Lim := by
    have := Nat.div_le_self r d
    omega
  obtain ⟨o, g1, g2⟩ := (sign_spec hK.correct E p.voting h7 ⟨r / d, r % d⟩ msg fresh hb).1
    ((h8 _).2 ⟨Nat.div_le_div_right r1, Nat.div_le_div_right r2⟩)
  exact ⟨_, o, by rw [h5]; exact roundId_ok r d hd, g1, g2⟩

/-- C27: generated keys sign for no round of a batch outside the interval's batches. -/
theorem C27_only_interval_batches {G : Type} [AddCommGroup G] {S : Scheme} {K : Keys S} (hK : GoodKeys K) (E : Enc)
    (hE : EmptyInvalid S E) (C : Vrf.Curve G) (master : S.Sk) (eph : Nat → S.Sk) (seed parent : Bytes)
    (first last d : Nat) (h : first ≤ last) (hd : 0 < d) (hd2 : d < u64Lim) (hl : last + 1 < u64Lim)
    (p : Participation S) (w : List (Name × Bytes))
    (hp : fillDb E K C master eph seed parent first last d = .ok (p, w)) (r : Nat) (hr : r + 1 < u64Lim) :
    CanSign E p r ↔ first / d ≤ r / d ∧ r / d ≤ last / d := by
  obtain ⟨p', h1, _, _, _, _, h5, _, h7, _, h8⟩ := fillDb_ok E K C master eph seed parent first last d h hd hl hK.correct
  rw [hp] at h1
  injection h1 with h1
  have h1 := congrArg Prod.fst h1
  simp only at h1
  subst h1
  rw [canSign_iff hK.correct hE ⟨master⟩ h7 (by omega) (by omega) r hr, h8, h5]

/-- C27: an empty interval is refused; a zero dilution (which `delete_old_keys` treats as "use the default") panics. -/
theorem C27_refused {G : Type} [AddCommGroup G] {S : Scheme} (K : Keys S) (E : Enc)
    (C : Vrf.Curve G) (master : S.Sk) (eph : Nat → S.Sk) (seed parent : Bytes) (first last d : Nat) :
    (last < first → fillDb E K C master eph seed parent first last d = .err (.invalidRoundInterval first last)) ∧
    (first ≤ last → fillDb E K C master eph seed parent first last 0 = .panic) := by
  constructor
  · intro h; rw [fillDb, if_pos h]
  · intro h; rw [fillDb, if_neg (by omega), roundId_zero]; rfl

theorem emptyInvalid_byte : EmptyInvalid byteScheme toyOtsEnc := by
  intro id msg pk
  have : byteScheme.verify (1 :: List.replicate 31 0)
      (offsetRep toyOtsEnc (1 :: List.replicate 31 0) id.batch id.offset) (List.replicate 64 0) = false := rfl
  simp only [OTS.verify, blankOTS, this, Bool.and_false, Bool.false_and]

example : ∃ p, fillDb toyOtsEnc byteKeys toyCurve (7 : UInt8) (fun i => UInt8.ofNat i) (List.replicate 32 5)
    (List.replicate 32 6) 15 38 10 = .ok (p, persist byteKeys p) ∧ p.parent = List.replicate 32 6 ∧ p.firstValid = 15 ∧
    p.lastValid = 38 ∧ p.keyDilution = 10 ∧ ∀ r, 15 ≤ r → r ≤ 38 → CanSign toyOtsEnc p r :=
  C27_covers_interval byteKeys_good _ _ _ _ _ _ 15 38 10 (by decide) (by decide) (by decide)

/-! ## C29: deleting old keys -/

theorem deletion_cases {S : Scheme} {E : Enc} {K : Keys S} {p p' : Participation S} {cur dd : Nat}
    {fresh : Nat → S.Sk} {w : List (Name × Bytes)}
    (h : (deleteOldKeys E K p cur dd fresh) = .ok (p', w)) :
    ∃ v, 0 < (if p.keyDilution = 0 then dd else p.keyDilution) ∧
      deleteBefore E p.voting ⟨cur / (if p.keyDilution = 0 then dd else p.keyDilution),
        cur % (if p.keyDilution = 0 then dd else p.keyDilution)⟩ (if p.keyDilution = 0 then dd else p.keyDilution) fresh
        = .ok v ∧
      p' = { p with voting := v } ∧ w = [(.voting, enc (secretsMP K v))] := by
  rw [deleteOldKeys] at h
  generalize (if p.keyDilution = 0 then dd else p.keyDilution) = d at h ⊢
  rcases Nat.eq_zero_or_pos d with rfl | hd
  · rw [roundId_zero] at h; cases h
  · rw [roundId_ok _ _ hd, Res.ok_bind] at h
    revert h
    cases hv : deleteBefore E p.voting ⟨cur / d, cur % d⟩ d fresh with
    | ok v =>
      intro h
      injection h with h
      injection h with h1 h2
      exact ⟨v, hd, rfl, h1.symm, h2.symm⟩
    | err e => intro h; cases h
    | panic => intro h; cases h

theorem deletion_succeeds {S : Scheme} (E : Enc) (K : Keys S) (p : Participation S) (cur dd : Nat)
    (fresh : Nat → S.Sk) (hd : 0 < (if p.keyDilution = 0 then dd else p.keyDilution)) (hc : cur + 1 < u64Lim) :
    ∃ p' w, (deleteOldKeys E K p cur dd fresh) = .ok (p', w) := by
  rw [deleteOldKeys]
  generalize (if p.keyDilution = 0 then dd else p.keyDilution) = d at hd ⊢
  rw [roundId_ok _ _ hd, Res.ok_bind]
  have hb : cur / d + 1 < u64Lim := by
    have := Nat.div_le_self cur d
    omega
  rcases deleteBefore_cases E p.voting ⟨cur / d, cur % d⟩ d fresh hb with ⟨_, _, e⟩ | ⟨_, _, e⟩ | ⟨_, e⟩ | ⟨_, _, _, e⟩ |
      ⟨_, e⟩ | ⟨_, _, _, _, _, e⟩ <;> exact ⟨_, _, by rw [e]⟩

theorem subkeysOk_sub {S : Scheme} {K : Keys S} {l l' : List (Subkey S)} (h : SubkeysOk K l) (hs : l'.Sublist l) :
    SubkeysOk K l' :=
  ⟨lt_of_le_of_lt hs.length_le h.1, fun k hk => h.2 k (hs.subset hk)⟩

theorem deleteBefore_ok {S : Scheme} {K : Keys S} (hK : GoodKeys K) {E : Enc} {st st' : Secrets S} {cur : Ident} {n : Nat}
    {fresh : Nat → S.Sk} (h : deleteBefore E st cur n fresh = .ok st') (hs : SecretsOk K st) (hn : n < u32Lim)
    (ho : cur.offset < n) : SecretsOk K st' := by
  have hc := (deleteBefore_signable E st st' cur n fresh h).1
  have h32 : u32Lim < u64Lim := by decide
  rcases deleteBefore_cases E st cur n fresh hc with ⟨a, b, e⟩ | ⟨a, b, e⟩ | ⟨a, e⟩ | ⟨a, b, c, e⟩ | ⟨a, e⟩ |
      ⟨k, rest, a, b, c, e⟩
  all_goals (rw [h] at e; injection e with e; subst e)
  · exact hs
  · refine ⟨hs.verifier, hs.firstBatch, hs.batches, ?_, subkeysOk_sub hs.offsets (List.drop_sublist _ _), hs.pk2, hs.pk2Sig⟩
    simp only
    omega
  · exact hs
  · exact ⟨hs.verifier, hs.firstBatch, hs.batches, hs.firstOffset, ⟨by simp [u32Lim], by simp⟩, hs.pk2, hs.pk2Sig⟩
  · exact ⟨hs.verifier, by simp only; omega, ⟨by simp [u32Lim], by simp⟩, hs.firstOffset, ⟨by simp [u32Lim], by simp⟩,
      hs.pk2, hs.pk2Sig⟩
  · have hsub : (k :: rest).Sublist st.batches := by rw [← c]; exact List.drop_sublist _ _
    have hb := subkeysOk_sub hs.batches hsub
    obtain ⟨l1, l2⟩ := expand_spec E k.sk cur.batch fresh (n - cur.offset) cur.offset
    refine ⟨hs.verifier, hc, subkeysOk_sub hb (List.sublist_cons_self _ _), by simp only; omega, ⟨?_, ?_⟩,
      ⟨hK.pub_len _, hK.pub_ok _⟩, hb.2 k (by simp)⟩
    · simp only [l1]; omega
    · intro x hx
      obtain ⟨j, hj⟩ := List.mem_iff_getElem?.1 hx
      rw [(l2 j x hj).2]
      exact ⟨hK.sign_len _ _, hK.sign_ok _ _⟩

/-- C29: deleting old keys and restoring gives the same participation with its voting secrets advanced, and a crash at
any point leaves the participation from before or from after. -/
theorem C29_crash_safe {S : Scheme} {K : Keys S} (hK : GoodKeys K) (E : Enc) (s : Store)
    (p p' : Participation S) (cur dd : Nat) (fresh : Nat → S.Sk) (w : List (Name × Bytes)) (hp : PartOk K p)
    (hdil : (if p.keyDilution = 0 then dd else p.keyDilution) < u32Lim)
    (hs : Holds K s p) (h : (deleteOldKeys E K p cur dd fresh) = .ok (p', w)) :
    restore K s = .ok p ∧ restore K (s.inserts w) = .ok p' ∧
    (∀ k, restore K (s.inserts (w.take k)) = .ok p ∨ restore K (s.inserts (w.take k)) = .ok p') ∧
    p' = { p with voting := p'.voting } ∧ Holds K (s.inserts w) p' ∧ PartOk K p' := by
  obtain ⟨v, hd, hv, rfl, rfl⟩ := deletion_cases h
  have hv' := deleteBefore_ok hK hv hp.voting hdil (Nat.mod_lt _ hd)
  have hp' : PartOk K { p with voting := v } :=
    ⟨hp.parent, hp.vrfPriv, hp.vrfPub, hv', hp.firstValid, hp.lastValid, hp.keyDilution⟩
  have hh : Holds K (s.inserts [(.voting, enc (secretsMP K v))]) { p with voting := v } := by
    simp only [Holds, persist, List.mem_cons, List.not_mem_nil, or_false, forall_eq_or_imp, forall_eq] at hs
    simp [Holds, persist, Store.inserts, Store.insert, hs, snapshot]
  have hafter := restore_holds hK hp' hh
  refine ⟨restore_holds hK hp hs, hafter, ?_, rfl, hh, hp'⟩
  intro k
  rcases Nat.eq_zero_or_pos k with rfl | hk
  · left; exact restore_holds hK hp hs
  · right; rw [List.take_of_length_le (show 1 ≤ k from hk)]; exact hafter

theorem deletion_sign {S : Scheme} {K : Keys S} (hK : GoodKeys K) {E : Enc}
    {p p' : Participation S} {cur dd : Nat} {fresh : Nat → S.Sk} {w : List (Name × Bytes)}
    (hd : 0 < p.keyDilution) (hc : Certified E p.voting)
    (h : (deleteOldKeys E K p cur dd fresh) = .ok (p', w)) :
    p' = { p with voting := p'.voting } ∧ Certified E p'.voting ∧ p'.voting.verifier = p.voting.verifier ∧
    ∀ r, Signable p'.voting ⟨r / p.keyDilution, r % p.keyDilution⟩ ↔
      Signable p.voting ⟨r / p.keyDilution, r % p.keyDilution⟩ ∧ cur ≤ r := by
  obtain ⟨v, _, hv, rfl, rfl⟩ := deletion_cases h
  rw [if_neg (by omega)] at hv
  obtain ⟨c1, c2⟩ := deleteBefore_certified hK.correct E _ _ _ _ _ hv hc
  obtain ⟨_, s1, s2⟩ := deleteBefore_signable E _ _ _ _ _ hv
  refine ⟨rfl, c1, c2, ?_⟩
  intro r
  constructor
  · intro hr
    obtain ⟨a, b⟩ := s1 _ hr
    exact ⟨a, (idLe_rounds cur r _ hd).1 b⟩
  · rintro ⟨a, b⟩
    exact s2 _ (Nat.mod_lt _ hd) a ((idLe_rounds cur r _ hd).2 b)

/-- C29: after deletion the keys sign exactly for the rounds they could sign for before that are not older than the
requested one. -/
theorem C29_advanced {S : Scheme} {K : Keys S} (hK : GoodKeys K) {E : Enc} (hE : EmptyInvalid S E)
    (hne : Nonempty S.Sk) (p p' : Participation S) (cur dd : Nat) (fresh : Nat → S.Sk) (w : List (Name × Bytes))
    (hd : 0 < p.keyDilution) (hd2 : p.keyDilution < u64Lim) (hc : Certified E p.voting)
    (h : (deleteOldKeys E K p cur dd fresh) = .ok (p', w)) (r : Nat) (hr : r + 1 < u64Lim) :
    CanSign E p' r ↔ CanSign E p r ∧ cur ≤ r := by
  obtain ⟨h1, h2, h3, h4⟩ := deletion_sign hK hd hc h
  have hk : p'.keyDilution = p.keyDilution := by rw [h1]
  rw [canSign_iff hK.correct hE hne h2 (by omega) (by omega) r hr, canSign_iff hK.correct hE hne hc hd hd2 r hr, hk, h4]

/-- C29: deletion does not fail when the round is below the largest number and a dilution is known. -/
theorem C29_total {S : Scheme} (E : Enc) (K : Keys S) (p : Participation S) (cur dd : Nat)
    (fresh : Nat → S.Sk) (hd : 0 < p.keyDilution ∨ 0 < dd) (hc : cur + 1 < u64Lim) :
    ∃ p' w, (deleteOldKeys E K p cur dd fresh) = .ok (p', w) := by
  refine deletion_succeeds E K p cur dd fresh ?_ hc
  split <;> omega

/-- C29: deletion crashes exactly without a dilution or at the last round number with one round per batch; it is never
refused. -/
theorem C29_crash_iff {S : Scheme} (E : Enc) (K : Keys S) (p : Participation S) (cur dd : Nat) (fresh : Nat → S.Sk)
    (hc : cur < u64Lim) :
    (deleteOldKeys E K p cur dd fresh = .panic ↔ (p.keyDilution = 0 ∧ dd = 0) ∨
      (cur + 1 = u64Lim ∧ (p.keyDilution = 1 ∨ (p.keyDilution = 0 ∧ dd = 1)))) ∧
    ∀ e, deleteOldKeys E K p cur dd fresh ≠ .err e := by
  have key : ∀ d, d = (if p.keyDilution = 0 then dd else p.keyDilution) →
      (deleteOldKeys E K p cur dd fresh = .panic ↔ d = 0 ∨ (cur + 1 = u64Lim ∧ d = 1)) ∧
      ∀ e, deleteOldKeys E K p cur dd fresh ≠ .err e := by
    intro d hd
    rcases Nat.eq_zero_or_pos d with h0 | hpos
    · have : deleteOldKeys E K p cur dd fresh = .panic := by
        rw [deleteOldKeys, ← hd, h0, roundId_zero]; rfl
      rw [this]
      exact ⟨⟨fun _ => Or.inl h0, fun _ => rfl⟩, fun e => by simp⟩
    · by_cases hlast : cur + 1 = u64Lim ∧ d = 1
      · have : deleteOldKeys E K p cur dd fresh = .panic := by
          rw [deleteOldKeys, ← hd, roundId_ok _ _ hpos, Res.ok_bind]
          have : deleteBefore E p.voting ⟨cur / d, cur % d⟩ d fresh = .panic := by
            rw [deleteBefore, addU64, if_neg (by simp only; rw [hlast.2, Nat.div_one]; omega)]; rfl
          rw [this]
        rw [this]
        exact ⟨⟨fun _ => Or.inr hlast, fun _ => rfl⟩, fun e => by simp⟩
      · have hb : cur / d + 1 < u64Lim := by
          by_cases h1 : d = 1
          · have : cur + 1 ≠ u64Lim := fun h => hlast ⟨h, h1⟩
            have := Nat.div_le_self cur d
            omega
          · have h2 : cur / d ≤ cur / 2 := Nat.div_le_div_left (by omega) (by omega)
            have : (1 : Nat) < u64Lim := by decide
            generalize u64Lim = L at *
            omega
        obtain ⟨v, hv⟩ : ∃ v, deleteBefore E p.voting ⟨cur / d, cur % d⟩ d fresh = .ok v := by
          rcases deleteBefore_cases E p.voting ⟨cur / d, cur % d⟩ d fresh hb with ⟨_, _, e⟩ | ⟨_, _, e⟩ | ⟨_, e⟩ |
            ⟨_, _, _, e⟩ | ⟨_, e⟩ | ⟨_, _, _, _, _, e⟩ <;> exact ⟨_, e⟩
        have : ∃ r, deleteOldKeys E K p cur dd fresh = .ok r := by
          rw [deleteOldKeys, ← hd, roundId_ok _ _ hpos, Res.ok_bind, hv]; exact ⟨_, rfl⟩
        obtain ⟨r, hr⟩ := this
        rw [hr]
        exact ⟨⟨fun h => by simp at h, fun h => by rcases h with h | h; · omega
                                                   · exact absurd h hlast⟩, fun e => by simp⟩
  obtain ⟨k1, k2⟩ := key _ rfl
  refine ⟨k1.trans ?_, k2⟩
  split
  · rename_i h; simp [h]
  · rename_i h; simp [h]

-- one round per batch: the last round number crashes
example {S : Scheme} (E : Enc) (K : Keys S) (p : Participation S) (h : p.keyDilution = 1) (fresh : Nat → S.Sk) :
    deleteOldKeys E K p (u64Lim - 1) 0 fresh = .panic :=
  (C29_crash_iff E K p (u64Lim - 1) 0 fresh (by decide)).1.2 (Or.inr ⟨by decide, Or.inl h⟩)

theorem toyPart_certified (x : UInt8) : Certified toyOtsEnc (toyPart x).voting := by
  constructor
  · intro i k hk
    cases i with
    | zero =>
      simp only [toyPart, List.getElem?_cons_zero, Option.some.injEq] at hk
      subst hk
      exact byteKeys_good.correct x _
    | succ i => simp [toyPart] at hk
  · intro j k hk
    simp [toyPart] at hk

-- deleting before round 4 keeps round 4 and drops round 3
example : ∃ p' w, (deleteOldKeys toyOtsEnc byteKeys (toyPart 3) 4 0 (fun _ => (1 : UInt8))) = .ok (p', w) ∧
    CanSign toyOtsEnc p' 4 ∧ ¬ CanSign toyOtsEnc p' 3 := by
  obtain ⟨p', w, h⟩ := C29_total toyOtsEnc byteKeys (toyPart 3) 4 0 (fun _ => (1 : UInt8))
    (Or.inl (by decide)) (by decide)
  have hc := toyPart_certified 3
  have ha := C29_advanced byteKeys_good emptyInvalid_byte ⟨(0 : UInt8)⟩ _ _ _ _ _ _ (by decide) (by decide) hc h
  have hs := canSign_iff byteKeys_good.correct emptyInvalid_byte ⟨(0 : UInt8)⟩ hc (by decide) (by decide) 4 (by decide)
  refine ⟨p', w, h, (ha 4 (by decide)).2 ⟨hs.2 (Or.inr (by decide)), le_refl 4⟩, ?_⟩
  intro h3
  have := ((ha 3 (by decide)).1 h3).2
  omega

/-- A store that has the keys of `toyPart x`. -/
def toyStore (x : UInt8) : Store := Store.inserts (fun _ => none) (persist byteKeys (toyPart x))

theorem toyStore_holds (x : UInt8) : Holds byteKeys (toyStore x) (toyPart x) := by
  simp [toyStore, Holds, persist, Store.inserts, Store.insert]

/-- `C28_crash_partial`: a crash after three inserts leaves new parent, VRF key and voting keys with the old interval. -/
example : restore byteKeys ((toyStore 1).inserts ((persist byteKeys (toyPart 2)).take 3)) =
    .ok ⟨(toyPart 2).parent, (toyPart 2).vrf, (toyPart 2).voting, 0, 9, 10⟩ :=
  (C28_crash_partial byteKeys_good (toyStore 1) (toyPart 1) (toyPart 2) (toyPart_ok 1) (toyPart_ok 2) (toyStore_holds 1) 3).1

/-- `C28_first_crash_panics`: the first participation of a machine, cut after five of six inserts. -/
example : restore byteKeys (Store.inserts (fun _ => none) ((persist byteKeys (toyPart 1)).take 5)) = .panic :=
  C28_first_crash_panics byteKeys_good (toyPart 1) (toyPart_ok 1) _ (fun _ _ => rfl) 5 (by decide)

/-- `C27_only_interval_batches`: rounds 15 to 38 with dilution ten: keys for round 10 (the same batch), none for 40. -/
example : ∃ p w, fillDb toyOtsEnc byteKeys toyCurve (7 : UInt8) (fun i => UInt8.ofNat i) (List.replicate 32 5)
    (List.replicate 32 6) 15 38 10 = .ok (p, w) ∧ CanSign toyOtsEnc p 10 ∧ ¬ CanSign toyOtsEnc p 40 := by
  obtain ⟨p, h, _⟩ := C27_covers_interval byteKeys_good toyOtsEnc toyCurve (7 : UInt8) (fun i => UInt8.ofNat i)
    (List.replicate 32 5) (List.replicate 32 6) 15 38 10 (by decide) (by decide) (by decide)
  have key := C27_only_interval_batches byteKeys_good toyOtsEnc emptyInvalid_byte toyCurve (7 : UInt8) (fun i => UInt8.ofNat i)
    (List.replicate 32 5) (List.replicate 32 6) 15 38 10 (by decide) (by decide) (by decide) (by decide) p _ h
  exact ⟨p, _, h, (key 10 (by decide)).2 (by decide), fun hc => absurd ((key 40 (by decide)).1 hc).2 (by decide)⟩

/-- `C29_crash_safe`: deleting the keys before round 4 of the stored participation. -/
example : ∃ p' w, deleteOldKeys toyOtsEnc byteKeys (toyPart 3) 4 0 (fun _ => (1 : UInt8)) = .ok (p', w) ∧
    restore byteKeys ((toyStore 3).inserts w) = .ok p' := by
  obtain ⟨p', w, h⟩ := C29_total toyOtsEnc byteKeys (toyPart 3) 4 0 (fun _ => (1 : UInt8)) (Or.inl (by decide)) (by decide)
  exact ⟨p', w, h, (C29_crash_safe byteKeys_good toyOtsEnc (toyStore 3) (toyPart 3) p' 4 0 _ w (toyPart_ok 3) (by decide)
    (toyStore_holds 3) h).2.1⟩

end Verif.Props
