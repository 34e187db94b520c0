import Verif.Lemmas.Msgpack
import Verif.Lemmas.Codec
import Verif.Model.ApplyData
/-!
# The encoders produce values the writer can represent, and determine what they encode
-/

namespace Verif.Codec
open Verif Verif.Msgpack Verif.Tx Verif.Block Verif.HashId Verif.Multisig

theorem fitsList_iff (l : List MP) : FitsList l ↔ ∀ a ∈ l, a.Fits := by
  induction l with
  | nil => simp [FitsList]
  | cons a l ih => simp [FitsList, ih]

theorem fits_uint {n : Nat} (h : n < u64Lim) : (MP.uint n).Fits := by simpa [MP.Fits] using h
theorem fits_str {s : Bytes} (h : s.length < u32Lim) : (MP.str s).Fits := by simpa [MP.Fits] using h
theorem fits_bin {s : Bytes} (h : s.length < u32Lim) : (MP.bin s).Fits := by simpa [MP.Fits] using h
theorem fits_bool (b : Bool) : (MP.bool b).Fits := by simp [MP.Fits]
theorem fits_nil : MP.nil.Fits := by simp [MP.Fits]

theorem fits_arr {l : List MP} (h : l.length < u32Lim) (hl : ∀ a ∈ l, a.Fits) : (MP.arr l).Fits := by
  rw [MP.Fits]; exact ⟨by simpa using h, (fitsList_iff l).2 hl⟩

theorem fits_arr_map {α : Type} {l : List α} {f : α → MP} (h : l.length < u32Lim) (hl : ∀ a ∈ l, (f a).Fits) :
    (MP.arr (l.map f)).Fits := fits_arr (by simpa using h) (by simpa using hl)

theorem fits_bytesArr {b : Bytes} (h : b.length < u32Lim) : (bytesArr b).Fits :=
  fits_arr_map h fun x _ => fits_uint (by have := x.toNat_lt; have : u64Lim = 18446744073709551616 := rfl; omega)

theorem fits_strLit {cs : List Char} (h : cs.length < u32Lim) : (strLit cs).Fits := fits_str (by simpa [asciiBytes] using h)

theorem flat_length (ps : List (Key × MP)) : (flat ps).length = 2 * ps.length := by
  induction ps with
  | nil => rfl
  | cons p ps ih => obtain ⟨k, v⟩ := p; simp [flat, ih]; omega

theorem fits_key (k : Key) : (MP.str k.bytes).Fits :=
  fits_str (by cases k <;> decide)

theorem fits_flat {ps : List (Key × MP)} (hp : ∀ p ∈ ps, p.2.Fits) : ∀ a ∈ flat ps, a.Fits := by
  induction ps with
  | nil => simp [flat]
  | cons p ps ih =>
    obtain ⟨k, v⟩ := p
    simp only [flat, List.mem_cons]
    rintro a (rfl | rfl | h)
    · exact fits_key k
    · exact hp (k, a) (by simp)
    · exact ih (fun p h => hp p (by simp [h])) a h

theorem fits_map_flat {ps : List (Key × MP)} (hl : ps.length < u32Lim) (hp : ∀ p ∈ ps, p.2.Fits) :
    (MP.map (flat ps)).Fits := by
  rw [MP.Fits, flat_length]
  exact ⟨by omega, by rw [Nat.mul_div_cancel_left _ (by decide)]; simpa using hl, (fitsList_iff _).2 (fits_flat hp)⟩

theorem skipIf_mem {c : Bool} {k : Key} {v : MP} {p : Key × MP} (h : p ∈ skipIf c k v) : p.2 = v := by
  unfold skipIf at h
  cases c <;> simp at h
  rw [h]

theorem skipIf_length (c : Bool) (k : Key) (v : MP) : (skipIf c k v).length ≤ 1 := by
  cases c <;> simp [skipIf]

theorem l32 {b : Bytes} (h : b.length = 32) : b.length < u32Lim := by rw [h]; decide
theorem l64 {b : Bytes} (h : b.length = 64) : b.length < u32Lim := by rw [h]; decide

theorem headerPairs_fits {h : Header} (ht : HeaderTyped h) : ∀ p ∈ headerPairs h, p.2.Fits := by
  intro p hp
  simp only [headerPairs, List.mem_append] at hp
  rcases hp with ((((((((hp | hp) | hp) | hp) | hp) | hp) | hp) | hp) | hp) | hp <;> rw [skipIf_mem hp]
  · exact fits_bin (l32 ht.sender)
  · exact fits_uint ht.fee
  · exact fits_uint ht.firstValid
  · exact fits_uint ht.lastValid
  · exact fits_bytesArr ht.note
  · exact fits_str ht.genesisId
  · exact fits_bytesArr (l32 ht.genesisHash)
  · exact fits_bytesArr (l32 ht.group)
  · exact fits_bytesArr (l32 ht.lease)
  · exact fits_bin (l32 ht.rekeyTo)

theorem headerPairs_length (h : Header) : (headerPairs h).length ≤ 10 := by
  simp only [headerPairs, List.length_append]
  have := fun c k v => skipIf_length c k v
  have a1 := this (h.sender = zero32) .snd (.bin h.sender)
  have a2 := this (h.fee = 0) .fee (.uint h.fee)
  have a3 := this (h.firstValid = 0) .fv (.uint h.firstValid)
  have a4 := this (h.lastValid = 0) .lv (.uint h.lastValid)
  have a5 := this (h.note = []) .note (bytesArr h.note)
  have a6 := this (h.genesisId = []) .gen (.str h.genesisId)
  have a7 := this (h.genesisHash = zero32) .gh (bytesArr h.genesisHash)
  have a8 := this (h.group = zero32) .grp (bytesArr h.group)
  have a9 := this (h.lease = zero32) .lx (bytesArr h.lease)
  have a10 := this (h.rekeyTo = zero32) .rekey (.bin h.rekeyTo)
  omega

theorem fits_schema {s : Teal.Schema} (h : s.numUint < u64Lim ∧ s.numByteSlice < u64Lim) : (schemaMP s).Fits := by
  refine fits_arr (by simp [u32Lim]) ?_
  simp only [List.mem_cons, List.not_mem_nil, or_false]
  rintro a (rfl | rfl)
  · exact fits_uint h.1
  · exact fits_uint h.2

theorem fits_assetParams {p : AssetParams} (ht : AssetParamsTyped p) : (assetParamsMP p).Fits := by
  refine fits_arr (by simp [u32Lim]) ?_
  simp only [List.mem_cons, List.not_mem_nil, or_false]
  rintro a (rfl | rfl | rfl | rfl | rfl | rfl | rfl | rfl | rfl | rfl | rfl)
  · exact fits_uint ht.total
  · exact fits_uint (Nat.lt_trans ht.decimals (by decide))
  · exact fits_bool _
  · exact fits_str ht.unitName
  · exact fits_str ht.assetName
  · exact fits_str ht.url
  · exact fits_bytesArr (l32 ht.metadataHash)
  · exact fits_bin (l32 ht.manager)
  · exact fits_bin (l32 ht.reserve)
  · exact fits_bin (l32 ht.freeze)
  · exact fits_bin (l32 ht.clawback)

theorem u32_u64 {n : Nat} (h : n < u32Lim) : n < u64Lim := Nat.lt_trans h (by decide)

theorem bodyPairs_fits {L : Lib} {f : Fields} (ht : FieldsTyped L f) : ∀ p ∈ bodyPairs f, p.2.Fits := by
  intro p hp
  cases f with
  | keyreg f =>
    obtain ⟨h1, _, h2, h3, h4, h5⟩ := ht
    simp only [bodyPairs, List.mem_cons, List.not_mem_nil, or_false] at hp
    rcases hp with rfl | rfl | rfl | rfl | rfl | rfl
    · exact fits_bin (l32 h1)
    · exact fits_bytesArr (l32 h2)
    · exact fits_uint h3
    · exact fits_uint h4
    · exact fits_uint h5
    · exact fits_bool _
  | payment f =>
    obtain ⟨h1, h2, h3⟩ := ht
    simp only [bodyPairs, List.mem_append] at hp
    rcases hp with (hp | hp) | hp <;> rw [skipIf_mem hp]
    · exact fits_bin (l32 h1)
    · exact fits_uint h2
    · cases hc : f.closeRemainderTo with
      | none => exact fits_nil
      | some a => exact fits_bin (l32 (h3 a hc))
  | assetConfig f =>
    obtain ⟨h1, h2⟩ := ht
    simp only [bodyPairs, List.mem_cons, List.not_mem_nil, or_false] at hp
    rcases hp with rfl | rfl
    · exact fits_uint h1
    · exact fits_assetParams h2
  | assetTransfer f =>
    obtain ⟨h1, h2, h3, h4, h5⟩ := ht
    simp only [bodyPairs, List.mem_cons, List.not_mem_nil, or_false] at hp
    rcases hp with rfl | rfl | rfl | rfl | rfl
    · exact fits_uint h1
    · exact fits_uint h2
    · exact fits_bin (l32 h3)
    · exact fits_bin (l32 h4)
    · exact fits_bin (l32 h5)
  | assetFreeze f =>
    obtain ⟨h1, h2⟩ := ht
    simp only [bodyPairs, List.mem_cons, List.not_mem_nil, or_false] at hp
    rcases hp with rfl | rfl | rfl
    · exact fits_bin (l32 h1)
    · exact fits_uint h2
    · exact fits_bool _
  | appCall f =>
    have ht : AppCallTyped f := ht
    simp only [bodyPairs, List.mem_cons, List.not_mem_nil, or_false] at hp
    rcases hp with rfl | rfl | rfl | rfl | rfl | rfl | rfl | rfl | rfl | rfl | rfl
    · exact fits_uint ht.applicationId
    · exact fits_strLit (by cases f.onCompletion <;> decide)
    · exact fits_arr_map ht.applicationArgs.1 fun a ha => fits_bytesArr (ht.applicationArgs.2 a ha)
    · exact fits_arr_map ht.accounts.1 fun a ha => fits_bin (l32 (ht.accounts.2 a ha))
    · exact fits_arr_map ht.foreignApps.1 fun a ha => fits_uint (ht.foreignApps.2 a ha)
    · exact fits_arr_map ht.foreignAssets.1 fun a ha => fits_uint (ht.foreignAssets.2 a ha)
    · exact fits_schema ht.localStateSchema
    · exact fits_schema ht.globalStateSchema
    · exact fits_bytesArr ht.approvalProgram
    · exact fits_bytesArr ht.clearStateProgram
    · exact fits_uint (u32_u64 ht.extraProgramPages)
  | compactCert f =>
    simp only [bodyPairs, List.mem_cons, List.not_mem_nil, or_false] at hp
    rcases hp with rfl | rfl
    · exact fits_uint ht
    · exact fits_strLit (by decide)

theorem bodyPairs_length (f : Fields) : (bodyPairs f).length ≤ 11 := by
  cases f <;> simp only [bodyPairs, List.length_cons, List.length_nil, List.length_append]
  all_goals try omega
  rename_i f
  have a1 := skipIf_length (f.receiver = zero32) .rcv (.bin f.receiver)
  have a2 := skipIf_length (f.amount = 0) .amt (.uint f.amount)
  have a3 := skipIf_length (f.closeRemainderTo = none) .close (optAddr f.closeRemainderTo)
  omega

theorem fits_tx {L : Lib} {t : Transaction} (ht : TxTyped L t) : (txMP t).Fits := by
  refine fits_map_flat ?_ ?_
  · have a := headerPairs_length t.header
    have b := bodyPairs_length t.fields
    have : u32Lim = 4294967296 := rfl
    simp only [txPairs, List.length_append, List.length_cons]
    omega
  · intro p hp
    simp only [txPairs, List.mem_append, List.mem_cons] at hp
    rcases hp with hp | rfl | hp
    · exact headerPairs_fits ht.header p hp
    · exact fits_strLit (by cases t.fields <;> simp [tagName, u32Lim])
    · exact bodyPairs_fits ht.fields p hp

/-! ## Transactions -/

/-- A library that accepts all keys and signatures: typing with it only limits the sizes. -/
def sizesOnly : Lib := ⟨fun _ => true, fun _ => true, true⟩

theorem TxTyped.sizes {L : Lib} {t : Transaction} (h : TxTyped L t) : TxTyped sizesOnly t := by
  refine ⟨h.header, ?_⟩
  obtain ⟨hd, f⟩ := t
  have hf := h.fields
  cases f <;> first
    | exact hf
    | (obtain ⟨h1, _, h2⟩ := hf; exact ⟨h1, rfl, h2⟩)

/-- An address reader that undoes the writer. -/
def anyAddr : MP → Option Bytes
  | .bin a => some a
  | _ => none

theorem decTxWith_any {t : Transaction} (ht : TxTyped sizesOnly t) : decTxWith sizesOnly anyAddr (txMP t) = some t := by
  rw [decTxWith_eq sizesOnly anyAddr t ht (fun a => Or.inr rfl)]
  exact if_pos fun a _ => rfl

theorem txMP_inj {a b : Transaction} (ha : TxTyped sizesOnly a) (hb : TxTyped sizesOnly b) (h : txMP a = txMP b) : a = b := by
  have h1 := decTxWith_any ha
  rw [h, decTxWith_any hb] at h1
  exact (Option.some.inj h1).symm

/-! ## Multisignatures and logic signatures -/

/-- The sizes of a multisignature are those of its Rust type; keys and signatures are ones the library can hold. -/
structure MsigTyped (L : Lib) (m : Msig) : Prop where
  count : m.subsigs.length < u32Lim
  keys : ∀ s ∈ m.subsigs, s.key.length = 32 ∧ L.validPk s.key = true
  sigs : ∀ s ∈ m.subsigs, ∀ g, s.sig = some g → g.length = 64 ∧ L.validSig g = true

/-- The same for a logic signature. -/
structure LsigTyped (L : Lib) (l : LogicSig) : Prop where
  logic : l.logic.length < u32Lim
  sig : l.sig.length = 64 ∧ L.validSig l.sig = true
  msig : MsigTyped L l.msig
  args : l.args.length < u32Lim ∧ ∀ a ∈ l.args, a.length < u32Lim

/-- The same for a signed transaction. -/
structure StxTyped (L : Lib) (s : SignedTx) : Prop where
  sig : s.sig.length = 64 ∧ L.validSig s.sig = true
  msig : ∀ m, s.msig = some m → MsigTyped L m
  lsig : ∀ l, s.lsig = some l → LsigTyped L l
  tx : TxTyped L s.tx
  authAddr : s.authAddr.length = 32

theorem MsigTyped.sizes {L : Lib} {m : Msig} (h : MsigTyped L m) : MsigTyped sizesOnly m :=
  ⟨h.count, fun s hs => ⟨(h.keys s hs).1, rfl⟩, fun s hs g hg => ⟨(h.sigs s hs g hg).1, rfl⟩⟩

theorem LsigTyped.sizes {L : Lib} {l : LogicSig} (h : LsigTyped L l) : LsigTyped sizesOnly l :=
  ⟨h.logic, ⟨h.sig.1, rfl⟩, h.msig.sizes, h.args⟩

theorem StxTyped.sizes {L : Lib} {s : SignedTx} (h : StxTyped L s) : StxTyped sizesOnly s :=
  ⟨⟨h.sig.1, rfl⟩, fun m hm => (h.msig m hm).sizes, fun l hl => (h.lsig l hl).sizes, h.tx.sizes, h.authAddr⟩

theorem fits_optSig {o : Option Bytes} (h : ∀ g, o = some g → g.length = 64) : (optSig o).Fits := by
  cases o with
  | none => exact fits_nil
  | some g => exact fits_bytesArr (l64 (h g rfl))

theorem fits_subsig {s : Subsig} (hk : s.key.length = 32) (hs : ∀ g, s.sig = some g → g.length = 64) : (subsigMP s).Fits := by
  refine fits_arr (by simp [u32Lim]) ?_
  simp only [List.mem_cons, List.not_mem_nil, or_false]
  rintro a (rfl | rfl)
  · exact fits_bin (l32 hk)
  · exact fits_optSig hs

theorem u8_u64 (b : UInt8) : b.toNat < u64Lim := by
  have := b.toNat_lt
  have : u64Lim = 18446744073709551616 := rfl
  omega

theorem fits_msig {L : Lib} {m : Msig} (h : MsigTyped L m) : (msigMP m).Fits := by
  refine fits_arr (by simp [u32Lim]) ?_
  simp only [List.mem_cons, List.not_mem_nil, or_false]
  rintro a (rfl | rfl | rfl)
  · exact fits_uint (u8_u64 _)
  · exact fits_uint (u8_u64 _)
  · exact fits_arr_map h.count fun s hs => fits_subsig (h.keys s hs).1 fun g hg => (h.sigs s hs g hg).1

theorem fits_lsig {L : Lib} {l : LogicSig} (h : LsigTyped L l) : (lsigMP l).Fits := by
  refine fits_arr (by simp [u32Lim]) ?_
  simp only [List.mem_cons, List.not_mem_nil, or_false]
  rintro a (rfl | rfl | rfl | rfl)
  · exact fits_bytesArr h.logic
  · exact fits_bytesArr (l64 h.sig.1)
  · exact fits_msig h.msig
  · exact fits_arr_map h.args.1 fun a ha => fits_bytesArr (h.args.2 a ha)

theorem fits_stx {L : Lib} {s : SignedTx} (h : StxTyped L s) : (stxMP s).Fits := by
  refine fits_arr ?_ ?_
  · have : u32Lim = 4294967296 := rfl
    cases s.msig <;> cases s.lsig <;> (repeat' split) <;> simp [u32Lim]
  · intro a ha
    simp only [List.mem_append, List.mem_cons] at ha
    rcases ha with ((ha | ha) | ha) | rfl | ha
    · split at ha
      · simp at ha
      · rw [List.mem_singleton.1 ha]; exact fits_bytesArr (l64 h.sig.1)
    · cases hm : s.msig with
      | none => simp [hm] at ha
      | some m =>
        simp only [hm, Option.map_some, Option.toList_some, List.mem_singleton] at ha
        rw [ha]; exact fits_msig (h.msig m hm)
    · cases hm : s.lsig with
      | none => simp [hm] at ha
      | some m =>
        simp only [hm, Option.map_some, Option.toList_some, List.mem_singleton] at ha
        rw [ha]; exact fits_lsig (h.lsig m hm)
    · exact fits_tx h.tx
    · split at ha
      · simp at ha
      · rw [List.mem_singleton.1 ha]; exact fits_bin (l32 h.authAddr)

theorem decSig_bytesArr {L : Lib} {g : Bytes} (h : g.length = 64 ∧ L.validSig g = true) : decSig L (bytesArr g) = some g := by
  simp [decSig, decArr_bytesArr, h.1, h.2]

theorem decSubsig_mp {L : Lib} {s : Subsig} (hk : s.key.length = 32 ∧ L.validPk s.key = true)
    (hs : ∀ g, s.sig = some g → g.length = 64 ∧ L.validSig g = true) : decSubsig L (subsigMP s) = some s := by
  obtain ⟨k, o⟩ := s
  rw [subsigMP, decSubsig, decPk_bin L k hk.1 hk.2]
  cases o with
  | none => rfl
  | some g =>
    have : decOpt (decSig L) (optSig (some g)) = some (some g) := by
      show (decSig L (bytesArr g)).map some = _
      rw [decSig_bytesArr (hs g rfl)]; rfl
    simp only [this]; rfl

theorem decMsig_mp {L : Lib} {m : Msig} (h : MsigTyped L m) : decMsig L (msigMP m) = some m := by
  rw [msigMP, decMsig, decByte_toNat, decByte_toNat,
    decVec_map (decSubsig L) subsigMP m.subsigs fun s hs => decSubsig_mp (h.keys s hs) (h.sigs s hs)]
  rfl

theorem decLsig_mp {L : Lib} {l : LogicSig} (h : LsigTyped L l) : decLsig L (lsigMP l) = some l := by
  rw [lsigMP, decLsig, decBytes_bytesArr, decSig_bytesArr h.sig, decMsig_mp h.msig,
    decVec_map decBytes bytesArr l.args fun b _ => decBytes_bytesArr b]
  rfl

/-! ## Signed transactions: a reader that looks at the shape of each element -/

/-- The elements of an array. -/
def elems : MP → Option (List MP)
  | .arr l => some l
  | _ => none

/-- Takes the first element when it is an array of the given length. -/
def peel (n : Nat) : List MP → Option MP × List MP
  | [] => (none, [])
  | v :: l => if (elems v).map List.length = some n then (some v, l) else (none, v :: l)

/-- Reads what `stxMP` wrote. -/
def unStx : MP → Option SignedTx
  | .arr l => do
    let p := peel 64 l
    let q := peel 3 p.2
    let r := peel 4 q.2
    let sig ← (match p.1 with | none => some zero64 | some v => decSig sizesOnly v)
    let msig ← (match q.1 with | none => some none | some v => (decMsig sizesOnly v).map some)
    let lsig ← (match r.1 with | none => some none | some v => (decLsig sizesOnly v).map some)
    let (tx, l) ← next (decTxWith sizesOnly anyAddr) r.2
    let (auth, _) ← nextOr anyAddr zero32 l
    some ⟨sig, msig, lsig, tx, auth⟩
  | _ => none

theorem peel_hit {n : Nat} {l' : List MP} {l : List MP} (h : l'.length = n) : peel n (.arr l' :: l) = (some (.arr l'), l) := by
  simp [peel, elems, h]

theorem peel_arr_miss {n : Nat} {l' : List MP} {l : List MP} (h : l'.length ≠ n) : peel n (.arr l' :: l) = (none, .arr l' :: l) := by
  simp [peel, elems, h]

theorem peel_tx (n : Nat) (t : Transaction) (l : List MP) : peel n (txMP t :: l) = (none, txMP t :: l) := by
  simp [peel, elems, txMP]

theorem peel_sig {n : Nat} (b : Bytes) (l : List MP) (h : b.length = n) : peel n (bytesArr b :: l) = (some (bytesArr b), l) :=
  peel_hit (by simpa using h)

theorem peel_msig (n : Nat) (m : Msig) (l : List MP) :
    peel n (msigMP m :: l) = if n = 3 then (some (msigMP m), l) else (none, msigMP m :: l) := by
  split
  · rename_i h; exact peel_hit (by simp [h])
  · rename_i h; exact peel_arr_miss (by simp; omega)

theorem peel_lsig (n : Nat) (m : LogicSig) (l : List MP) :
    peel n (lsigMP m :: l) = if n = 4 then (some (lsigMP m), l) else (none, lsigMP m :: l) := by
  split
  · rename_i h; exact peel_hit (by simp [h])
  · rename_i h; exact peel_arr_miss (by simp; omega)

theorem unStx_mp {s : SignedTx} (h : StxTyped sizesOnly s) : unStx (stxMP s) = some s := by
  obtain ⟨sig, msig, lsig, tx, auth⟩ := s
  have hs := decSig_bytesArr h.sig
  have ht := decTxWith_any h.tx
  have hm : ∀ m, msig = some m → decMsig sizesOnly (msigMP m) = some m := fun m e => decMsig_mp (h.msig m e)
  have hl : ∀ m, lsig = some m → decLsig sizesOnly (lsigMP m) = some m := fun m e => decLsig_mp (h.lsig m e)
  have hsl := h.sig.1
  simp only at hs ht hsl
  obtain ⟨x, ha⟩ : ∃ x, nextOr anyAddr zero32 (if auth = zero32 then [] else [.bin auth]) = some (auth, x) := by
    split
    · rename_i e; exact ⟨[], by rw [nextOr, e]⟩
    · exact ⟨[], rfl⟩
  simp only [stxMP]
  generalize (if auth = zero32 then [] else [MP.bin auth]) = tail at ha
  by_cases hz : sig = zero64
  · rw [if_pos hz]
    cases msig with
    | none =>
      cases lsig with
      | none => simp [unStx, peel_tx, next, ht, ha, hz]
      | some l => simp [unStx, peel_tx, peel_lsig, next, ht, ha, hz, hl l rfl]
    | some m =>
      cases lsig with
      | none => simp [unStx, peel_tx, peel_msig, next, ht, ha, hz, hm m rfl]
      | some l => simp [unStx, peel_tx, peel_msig, peel_lsig, next, ht, ha, hz, hm m rfl, hl l rfl]
  · rw [if_neg hz]
    cases msig with
    | none =>
      cases lsig with
      | none => simp [unStx, peel_sig _ _ hsl, peel_tx, next, ht, ha, hs]
      | some l => simp [unStx, peel_sig _ _ hsl, peel_tx, peel_lsig, next, ht, ha, hs, hl l rfl]
    | some m =>
      cases lsig with
      | none => simp [unStx, peel_sig _ _ hsl, peel_tx, peel_msig, next, ht, ha, hs, hm m rfl]
      | some l => simp [unStx, peel_sig _ _ hsl, peel_tx, peel_msig, peel_lsig, next, ht, ha, hs, hm m rfl, hl l rfl]

theorem stxMP_inj {a b : SignedTx} (ha : StxTyped sizesOnly a) (hb : StxTyped sizesOnly b) (h : stxMP a = stxMP b) : a = b := by
  have h1 := unStx_mp ha
  rw [h, unStx_mp hb] at h1
  exact (Option.some.inj h1).symm

end Verif.Codec
