import Verif.Props.Ed25519Sig
import Verif.Props.Committee
import Verif.Props.Transaction
/-!
# Selection keys and committees on Curve25519 (C169)
-/

namespace Verif.Props
open Verif Verif.Vrf Verif.Curve Verif.Edwards Verif.Committee Verif.HashId

attribute [local irreducible] Curve.compress Curve.decompress Sha512.sha512 sqrt? Curve.elligator

variable {F : Type}

/-- **C58** on Curve25519: the own credential is accepted with the seats that the sortition gives, or has no seats. -/
theorem C58_curve25519 (Fl : Floats F) (hash : Bytes → Bytes) (proto : Consensus.Params)
    (mem : Membership) (seed : Bytes) (hkey : mem.record.selectionId = (fromSeed ed25519 seed).pub)
    (hon : mem.record.account.status = .online) (hpos : 0 < mem.record.account.microAlgos)
    (htot : mem.record.account.microAlgos ≤ mem.total)
    (hsize : 0 < mem.committeeSize proto ∧ mem.committeeSize proto ≤ mem.total)
    (hvalid : ∀ n, Fl.valid (Fl.div (Fl.ofU64 (mem.committeeSize proto)) (Fl.ofU64 mem.total)) n = true) :
    ∃ h w, select Fl mem.record.account.microAlgos mem.total (Fl.ofU64 (mem.committeeSize proto)) h = .ok w ∧
      ((w = 0 ∧ verify ed25519 Fl hash proto mem (newCredential ed25519 hash (fromSeed ed25519 seed) mem.selector) =
          .err .zeroWeight) ∨
       (0 < w ∧ ∃ c, verify ed25519 Fl hash proto mem (newCredential ed25519 hash (fromSeed ed25519 seed) mem.selector) = .ok c ∧
        c.weight = w ∧ c.vrfOut = h)) :=
  C58_own_credential ed25519 ed25519_good Fl hash proto mem seed hkey hon hpos htot hsize hvalid

/-! ## C169: seats are drawn anew for every round -/

/-- **C169** is false: an account with the blank selection key that has seats in one committee has as many in every
committee of the same size and stake, whatever the round and the seed are, and everybody can show it. -/
theorem C169_blank_key_violated (Fl : Floats F) (hash : Bytes → Bytes) (proto : Consensus.Params) (mem : Membership)
    (hkey : mem.record.selectionId = blankKey) (w : Nat) (hw : 0 < w)
    (hsel : weigh Fl (Balance.votingStake mem.record.account) mem.total (mem.committeeSize proto)
      (selectionHash hash proto ⟨Sha512.sha512 ([4, 3] ++ blankKey), mem.record.addr, 0⟩) = .ok w) :
    ∀ sel : ToBeHashed, ∃ proof c, verify ed25519 Fl hash proto { mem with selector := sel } proof = .ok c ∧ c.weight = w := by
  intro sel
  obtain ⟨proof, _, hv⟩ := C165_violated (hash (hashRep sel))
  have hv' : vrfVerify ed25519 hash mem.record.selectionId proof sel = .ok (Sha512.sha512 ([4, 3] ++ blankKey)) := by
    rw [hkey]; exact hv
  refine ⟨proof, ⟨w, selectionHash hash proto ⟨Sha512.sha512 ([4, 3] ++ blankKey), mem.record.addr, 0⟩,
    proto.credentialDomainSeparationEnabled,
    if proto.credentialDomainSeparationEnabled then some ⟨Sha512.sha512 ([4, 3] ++ blankKey), mem.record.addr, 0⟩ else none,
    proof⟩, ?_, rfl⟩
  unfold verify
  simp only [hv', hsel]
  rw [if_neg (by omega)]

-- an account with such a key and seats
example (proto : Consensus.Params) : weigh greedy (Balance.votingStake toyMember.record.account) toyMember.total
    (toyMember.committeeSize proto) (selectionHash (fun b => b.take 32) proto
      ⟨Sha512.sha512 ([4, 3] ++ blankKey), toyMember.record.addr, 0⟩) = .ok 105 := by
  rfl

/-- **C169**: the blank key can be registered: any key registration that goes online does so with the blank key, too. -/
theorem C169_blank_key_registered (f : Tx.Keyreg) (h : Tx.Header) (hl : h.lastValid + 1 < 2 ^ 64)
    (hf : GoesOnline f h.lastValid) :
    Tx.checkCoherency { f with selectionPk := blankKey } h = .ok () :=
  (C44_coherent_iff _ h hl).1.2 (Or.inl ⟨hf.1, show blankKey ≠ Tx.zero32 by decide, hf.2.2⟩)

/-- **C169**, what holds: without domain separation, if two accepted credentials of one account with a key made from a seed are
weighed by the same digest, then the selectors give the same point of the curve, or one of the explicit hashes collides, or a
proof was lucky. With domain separation the claim is false for all keys: `C55_same_in_every_round`. -/
theorem C169_fresh_partial (Fl : Floats F) (hash : Bytes → Bytes) (proto : Consensus.Params)
    (hd : proto.credentialDomainSeparationEnabled = false) (mem mem' : Membership) (hrec : mem.record = mem'.record)
    (seed : Bytes) (hkey : mem.record.selectionId = (fromSeed ed25519 seed).pub)
    (proof proof' : Bytes) (c c' : Credential)
    (h : verify ed25519 Fl hash proto mem proof = .ok c) (h' : verify ed25519 Fl hash proto mem' proof' = .ok c')
    (he : c.vrfOut = c'.vrfOut) :
    vrfPoint ed25519 mem.record.selectionId (hash (hashRep mem.selector)) =
        vrfPoint ed25519 mem.record.selectionId (hash (hashRep mem'.selector)) ∨
    (∃ a b : Bytes, a ≠ b ∧ hash (a ++ mem.record.addr) = hash (b ++ mem.record.addr) ∧
      verifyBytes ed25519 mem.record.selectionId proof (hash (hashRep mem.selector)) = .ok a ∧
      verifyBytes ed25519 mem.record.selectionId proof' (hash (hashRep mem'.selector)) = .ok b) ∨
    (∃ x : Nat, ∃ a b : Bytes, a ≠ b ∧ Sha512.sha512 a = Sha512.sha512 b ∧
        a = [4, 3] ++ Curve.compress (8 • x • vrfPoint ed25519 mem.record.selectionId (hash (hashRep mem.selector))) ∧
        b = [4, 3] ++ Curve.compress (8 • x • vrfPoint ed25519 mem.record.selectionId (hash (hashRep mem'.selector)))) ∨
    LuckyProof (Sig.scalarOf seed • basePoint) mem.record.selectionId proof (hash (hashRep mem.selector)) ∨
    LuckyProof (Sig.scalarOf seed • basePoint) mem.record.selectionId proof' (hash (hashRep mem'.selector)) := by
  obtain ⟨out, out', hv, hv', ho, ho', himp⟩ :=
    C55_output_hashed_partial ed25519 Fl hash Sha512.sha512_length proto hd mem mem' proof proof' c c' h h'
  rw [← hrec] at hv' ho' himp
  have hst : StandsFor mem.record.selectionId (Sig.scalarOf seed • basePoint) := by
    rw [hkey]; exact (decompress_iff _ _).1 (decompress_compress _)
  rcases himp he with ⟨e, _⟩ | ⟨hne, hcol⟩
  · obtain ⟨x, _, hall⟩ := C165_other_outputs_partial _ _ hst
      (fun h => scalar_not_multiple seed ((smallOrder_iff _).1 h))
    rw [← e] at hv'
    rcases hall _ _ _ _ _ hv hv' with r | r | r
    · exact Or.inl r
    · exact Or.inr (Or.inr (Or.inl ⟨x, r⟩))
    · exact Or.inr (Or.inr (Or.inr r))
  · refine Or.inr (Or.inl ⟨out, out', ?_, hcol, hv, hv'⟩)
    intro e
    exact hne (by rw [e])

/-- The example member with a key on the curve. -/
def realMember (seed : Bytes) (sel : ToBeHashed) : Membership :=
  { toyMember with record := { toyMember.record with selectionId := (fromSeed ed25519 seed).pub }, selector := sel }

/-- A case of `C58_curve25519`: every draw takes a seat. -/
theorem realCredential (seed : Bytes) (sel : ToBeHashed) (hash : Bytes → Bytes) (proto : Consensus.Params) :
    ∃ c, verify ed25519 greedy hash proto (realMember seed sel) (newCredential ed25519 hash (fromSeed ed25519 seed) sel) = .ok c := by
  obtain ⟨h, w, hw, hc⟩ := C58_curve25519 greedy hash proto (realMember seed sel) seed rfl rfl (show 0 < 105 by decide)
    (show 105 ≤ 1000 by decide)
    ⟨show 0 < 20 by decide, show 20 ≤ 1000 by decide⟩ (fun _ => rfl)
  rcases hc with ⟨h0, _⟩ | ⟨_, c, h1, _⟩
  · subst h0
    exact absurd ((C57_least_count greedy _ _ _ _ _ hw).2.2 (show 0 < 105 by decide)) (by simp [greedy])
  · exact ⟨c, h1⟩

/-- A case of `C169_blank_key_registered`: a registration for rounds 1 to 100. -/
example : Tx.checkCoherency ⟨List.replicate 32 1, blankKey, 1, 100, 10, false⟩ { Tx.Header.default with lastValid := 50 } = .ok () :=
  C169_blank_key_registered ⟨List.replicate 32 1, List.replicate 32 2, 1, 100, 10, false⟩ _ (by decide)
    ⟨by decide, by decide, by decide, by decide, by decide, by decide⟩

/-- A case of `C169_fresh_partial`: credentials for two selectors, without domain separation, and a hash that is constant, so
that the outputs agree (the second alternative of the theorem, or the first). -/
example (proto : Consensus.Params) (hd : proto.credentialDomainSeparationEnabled = false) (seed : Bytes) :
    ∃ c c', verify ed25519 greedy (fun _ => List.replicate 32 0) proto (realMember seed ⟨.agreementSelector, [1]⟩)
        (newCredential ed25519 (fun _ => List.replicate 32 0) (fromSeed ed25519 seed) ⟨.agreementSelector, [1]⟩) = .ok c ∧
      verify ed25519 greedy (fun _ => List.replicate 32 0) proto (realMember seed ⟨.agreementSelector, [2]⟩)
        (newCredential ed25519 (fun _ => List.replicate 32 0) (fromSeed ed25519 seed) ⟨.agreementSelector, [2]⟩) = .ok c' ∧
      c.vrfOut = c'.vrfOut := by
  obtain ⟨c, h⟩ := realCredential seed ⟨.agreementSelector, [1]⟩ (fun _ => List.replicate 32 0) proto
  obtain ⟨c', h'⟩ := realCredential seed ⟨.agreementSelector, [2]⟩ (fun _ => List.replicate 32 0) proto
  obtain ⟨_, _, _, _, h1, h2, _⟩ := C55_output_hashed_partial ed25519 greedy (fun _ => List.replicate 32 0) ed25519_good.sha_len
    proto hd (realMember seed ⟨.agreementSelector, [1]⟩) (realMember seed ⟨.agreementSelector, [2]⟩) _ _ c c' h h'
  have := C169_fresh_partial greedy (fun _ => List.replicate 32 0) proto hd (realMember seed ⟨.agreementSelector, [1]⟩)
    (realMember seed ⟨.agreementSelector, [2]⟩) rfl seed rfl _ _ c c' h h' (h1.trans h2.symm)
  exact ⟨c, c', h, h', h1.trans h2.symm⟩

end Verif.Props
