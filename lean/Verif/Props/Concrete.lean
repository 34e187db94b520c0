import Verif.Props.Ed25519Sig
import Verif.Props.Algokey
import Verif.Props.AccountManager

/-!
# The claims with the algorithms that are used

C174, and C10, C12, C13, C17, C90 with SHA-512/256, the shipped word list and Ed25519 in the place of parameters.
-/
namespace Verif.Props
open Verif Verif.Sig Verif.Sha512 Verif.Mnemonic Verif.Algokey

attribute [local irreducible] Curve.compress Curve.decompress Sha512.sha512 Sha512.sha512_256

/-- SHA-512/256 and the public keys of Ed25519. -/
def realLib : Algokey.Lib := ⟨sha512_256, publicKey⟩

theorem realLib_good : GoodLib realLib := ⟨sha512_256_length, publicKey_len⟩

/-- **C10** for the functions as they are. -/
theorem C10_shipped (key : Bytes) (hk : key.length = 32) :
    ∃ m, keyToMnemonic englishWords sha512_256 key = .ok m ∧ m.length = 25 ∧
      phraseToKey englishWords sha512_256 (joinSp m) = .ok key := by
  obtain ⟨m, h1, h2, _, _⟩ := C10_roundtrip englishWords englishWords_length englishWords_nodup sha512_256 sha512_256_length key hk
  obtain ⟨m', h1', h2'⟩ := C10_phrase_roundtrip sha512_256 sha512_256_length key hk
  rw [h1] at h1'
  injection h1' with h
  subst h
  exact ⟨m, h1, h2, h2'⟩

/-- **C12** for the functions as they are: a string is accepted exactly if it is the printed form of the result. -/
theorem C12_shipped (s a : Bytes) :
    Address.fromStr sha512_256 s = .ok a ↔
      a.length = 32 ∧ (Address.display sha512_256 a : Res Address.AddressError Bytes) = .ok s := by
  refine ⟨C12_accepted_is_canonical sha512_256 sha512_256_length s a, fun ⟨ha, h⟩ => ?_⟩
  obtain ⟨t, h1, _, h2⟩ := C12_roundtrip sha512_256 sha512_256_length a ha
  rw [h] at h1
  injection h1 with h1
  exact h1 ▸ h2

/-- **C17** with Ed25519 and SHA-512/256: as many holders as the threshold asks for, in any order. -/
theorem C17_shipped (msg : Bytes) (v t : UInt8) (pks : List Bytes) (addr : Bytes)
    (haddr : Multisig.fromPks sha512_256 v t pks = .ok addr) (hsize : pks.length ≤ 255) (signers : List Seed)
    (hfirst : pks[0]? ≠ some (1 :: List.replicate 31 0)) (htwo : 2 ≤ signers.length)
    (hmem : ∀ sk ∈ signers, publicKey sk.1 ∈ pks)
    (henough : t.toNat ≤ (pks.filter fun pk => decide (∃ sk ∈ signers, publicKey sk.1 = pk)).length) :
    ∃ us m, List.Forall₂ (fun sk u => Multisig.sign sha512_256 Sig.scheme addr msg v t pks sk (publicKey sk.1) = .ok u)
        signers us ∧
      Multisig.assemble us = .ok m ∧ m.verify sha512_256 Sig.scheme msg addr = .ok true :=
  C17_assemble_verifies sha512_256 Sig.scheme (fun sk m => (C167_sign_verifies sk.1 m).2) msg v t pks addr haddr hsize
    signers (fun h => absurd h hfirst) htwo hmem henough

/-- **C17** for an account shared by the holders of generated keys: there is no condition on the keys. -/
theorem C17_holders (msg : Bytes) (t : UInt8) (holders signers : List Seed) (hpos : 1 ≤ t.toNat) (hsize : holders.length ≤ 255)
    (hsub : signers.Sublist holders) (htwo : 2 ≤ signers.length) (henough : t.toNat ≤ signers.length) :
    ∃ addr us m, Multisig.fromPks sha512_256 1 t (holders.map fun k => publicKey k.1) = .ok addr ∧
      List.Forall₂ (fun sk u => Multisig.sign sha512_256 Sig.scheme addr msg 1 t (holders.map fun k => publicKey k.1) sk
        (publicKey sk.1) = .ok u) signers us ∧
      Multisig.assemble us = .ok m ∧ m.verify sha512_256 Sig.scheme msg addr = .ok true := by
  have haddr := (C19_address_total sha512_256 1 t (holders.map fun k => publicKey k.1)).1
    ⟨rfl, hpos, by rw [List.length_map]; exact henough.trans hsub.length_le⟩
  obtain ⟨us, m, h1, h2, h3⟩ := C17_shipped msg 1 t _ _ haddr (by rw [List.length_map]; exact hsize) signers
    (by
      intro h
      obtain ⟨k, _, hk⟩ := List.mem_map.1 (List.mem_of_getElem? h)
      exact (C168_blank_key_violated []).1 k.1 hk) htwo
    (fun sk h => List.mem_map.2 ⟨sk, hsub.subset h, rfl⟩)
    (by
      refine henough.trans ?_
      have := (hsub.map fun k => publicKey k.1).filter fun pk => decide (∃ sk ∈ signers, publicKey sk.1 = pk)
      refine le_trans (le_of_eq ?_) this.length_le
      rw [List.filter_eq_self.2, List.length_map]
      intro pk hpk
      obtain ⟨k, hk, rfl⟩ := List.mem_map.1 hpk
      exact decide_eq_true ⟨k, hk, rfl⟩)
  exact ⟨_, us, m, haddr, h1, h2, h3⟩

example (a b c : Seed) (msg : Bytes) := C17_holders msg 2 [a, b, c] [a, c] (by decide) (by simp)
  (by simp) (by simp) (by simp)

/-- **C30** with Ed25519: nothing is assumed about the keys. -/
theorem C30_ed25519 (s : Bool) (E : Ots.Enc) (tbl : Consensus.Protocols) (ops : List (MgrOp lenient))
    (m : Account.Manager lenient) (hrun : runMgr E (lenientKeys s) tbl Account.Manager.empty ops = .ok m)
    (hadd : ∀ p, MgrOp.add p ∈ ops → Certified E p.voting ∧ 0 < p.keyDilution ∧ p.keyDilution < u64Lim)
    (id : Account.Identity) (r : Nat) (hr : r + 1 < u64Lim) :
    (∃ p ∈ m.keys r, p.identity = id ∧ CanSign E p r) ↔
    ∃ p0 ds, firstAdd id ops = some (p0, ds) ∧ id.firstValid ≤ r ∧ r ≤ id.lastValid ∧ CanSign E p0 r ∧
      ∀ d ∈ ds, ∀ n, cutRound tbl d id.address = .ok n → n ≤ r :=
  C30_available (lenientKeys_good s) (lenient_empty E) ⟨⟨List.replicate 32 0, rfl⟩⟩ tbl ops m hrun hadd id r hr

/-! ## C174 -/

/-- **C174**: a key made by `algokey generate` can be written down as its phrase and used elsewhere. On every machine,
importing the phrase and exporting the key file show the same phrase and the same address. The address names a public key,
and whatever is signed with the key is accepted under it. -/
theorem C174_backup (seed : Bytes) (hs : seed.length = 32) (w : World) :
    ∃ phrase addr key, Algokey.generate realLib seed [] [] w = ⟨w, [.mnemonic phrase, .address addr], .done⟩ ∧
      (∀ (sk pk : Text) (w' : World), sk ≠ [] → pk ≠ [] → sk ≠ pk → w'.writable sk = true → w'.writable pk = true →
        ∃ w'', importKey realLib phrase sk pk w' = ⟨w'', [.mnemonic phrase, .address addr], .done⟩ ∧
          w''.files sk = some seed ∧ w''.files pk = some addr) ∧
      (∀ (sk : Text) (w' : World), w'.files sk = some seed →
        exportKey realLib sk [] w' = ⟨w', [.mnemonic phrase, .address addr], .done⟩) ∧
      Address.fromStr sha512_256 addr = .ok key ∧ addr.length = 58 ∧
      ∀ msg, Sig.verify key msg (Sig.sign seed msg) = true := by
  obtain ⟨m, m1, m2⟩ := phrase_of_seed realLib_good seed hs
  obtain ⟨a, a1, a2, a3⟩ := address_of_seed realLib_good seed
  have hgen : Algokey.generate realLib seed [] [] w = ⟨w, [.mnemonic (Algokey.join m), .address a], .done⟩ := by
    simp [Algokey.generate, m1, a1, World.writeIfNamed]
  refine ⟨Algokey.join m, a, publicKey seed, hgen, ?_, ?_, a3, a2, fun msg => (C167_sign_verifies seed msg).2⟩
  · intro sk pk w' h1 h2 h3 h4 h5
    obtain ⟨w'', addr, g1, g2, g3, g4, _⟩ := C110_import realLib realLib_good seed hs w w _ _ hgen sk pk h1 h2 h3 w' h4 h5
    refine ⟨w'', g1, g2, ?_⟩
    have := (C12_shipped addr _).1 g4
    have h' := (C12_shipped a _).1 a3
    rw [this.2] at h'
    obtain ⟨_, h'⟩ := h'
    injection h' with h'
    exact h' ▸ g3
  · intro sk w' h
    exact (C110_export realLib realLib_good seed hs sk [] w w _ hgen w' [] (by simpa using h)).1

/-- **C174**: the address decides who may spend. A transaction signed with the restored key is authorized by the very address
that was shown, under the encoding that is used. -/
theorem C174_spends (seed : Bytes) (hs : seed.length = 32) (w w' : World) (phrase : Text) (addr : Bytes)
    (hgen : Algokey.generate realLib seed [] [] w = ⟨w', [.mnemonic phrase, .address addr], .done⟩)
    (back : Bytes) (hback : phraseToKey englishWords sha512_256 phrase = .ok back) (hl : back.length = 32)
    (enc : Tx.Transaction → Bytes) (tx : Tx.Transaction) :
    Address.fromStr sha512_256 addr = .ok (Tx.sign Sig.scheme enc tx ⟨back, hl⟩).authorizer ∧
    Sig.verify (Tx.sign Sig.scheme enc tx ⟨back, hl⟩).authorizer (HashId.hashRep ⟨.transaction, enc tx⟩)
      (Tx.sign Sig.scheme enc tx ⟨back, hl⟩).sig = true := by
  obtain ⟨m, m1, m2⟩ := phrase_of_seed realLib_good seed hs
  obtain ⟨a, a1, a2, a3⟩ := address_of_seed realLib_good seed
  have hg : Algokey.generate realLib seed [] [] w = ⟨w, [.mnemonic (Algokey.join m), .address a], .done⟩ := by
    simp [Algokey.generate, m1, a1, World.writeIfNamed]
  rw [hg] at hgen
  simp only [Outcome.mk.injEq, List.cons.injEq, Line.mnemonic.injEq, Line.address.injEq] at hgen
  obtain ⟨_, ⟨rfl, rfl, _⟩, _⟩ := hgen
  have : back = seed := by
    have m2' : phraseToKey englishWords sha512_256 (Algokey.join m) = .ok seed := m2
    rw [m2'] at hback
    injection hback with h
    exact h.symm
  subst this
  obtain ⟨h1, h2⟩ := C47_ed25519 enc tx ⟨back, hl⟩
  exact ⟨by rw [h1]; exact a3, h2⟩

example (seed : Bytes) (hs : seed.length = 32) (enc : Tx.Transaction → Bytes) (tx : Tx.Transaction) :
    ∃ addr, Address.fromStr sha512_256 addr = .ok (Tx.sign Sig.scheme enc tx ⟨seed, hs⟩).authorizer := by
  obtain ⟨phrase, addr, key, h, _⟩ := C174_backup seed hs ⟨fun _ => none, fun _ => true⟩
  obtain ⟨p, a, w', g1, g2, _⟩ := C110_generate realLib realLib_good seed hs ['a'] ['b'] (by simp) (by simp) (by simp)
    ⟨fun _ => none, fun _ => true⟩ rfl rfl
  have hp : p = phrase := by
    obtain ⟨m, m1, _⟩ := phrase_of_seed realLib_good seed hs
    obtain ⟨t, a1, _⟩ := address_of_seed realLib_good seed
    simp [Algokey.generate, m1, a1, World.writeIfNamed, World.write] at h g1
    exact g1.2.1.symm.trans h.1
  exact ⟨addr, (C174_spends seed hs _ _ phrase addr h seed (hp ▸ g2) hs enc tx).1⟩

/-- A case of `C10_shipped`. -/
example : ∃ m, keyToMnemonic englishWords sha512_256 (List.replicate 32 9) = .ok m ∧ m.length = 25 ∧
    phraseToKey englishWords sha512_256 (joinSp m) = .ok (List.replicate 32 9) := C10_shipped _ List.length_replicate

/-- A case of `C17_shipped`: two of three keys, each the key of one holder; the first is not the excepted one. -/
example (a b c : Seed) (msg addr : Bytes)
    (haddr : Multisig.fromPks sha512_256 1 2 [publicKey a.1, publicKey b.1, publicKey c.1] = .ok addr)
    (hne : publicKey a.1 ≠ 1 :: List.replicate 31 0) :
    ∃ us m, List.Forall₂ (fun sk u => Multisig.sign sha512_256 Sig.scheme addr msg 1 2
        [publicKey a.1, publicKey b.1, publicKey c.1] sk (publicKey sk.1) = .ok u) [a, c] us ∧
      Multisig.assemble us = .ok m ∧ m.verify sha512_256 Sig.scheme msg addr = .ok true := by
  refine C17_shipped msg 1 2 _ addr haddr (by simp) [a, c] (by simpa using hne) (by simp) (by simp) ?_
  have h1 : List.Sublist [publicKey a.1, publicKey c.1] ([publicKey a.1, publicKey b.1, publicKey c.1].filter
      fun pk => decide (∃ sk ∈ [a, c], publicKey sk.1 = pk)) := by
    have : [publicKey a.1, publicKey c.1] = [publicKey a.1, publicKey c.1].filter
      (fun pk => decide (∃ sk ∈ [a, c], publicKey sk.1 = pk)) := by simp
    rw [this]
    exact List.Sublist.filter _ (.cons_cons _ (.cons _ (.cons_cons _ .slnil)))
  exact h1.length_le

end Verif.Props
