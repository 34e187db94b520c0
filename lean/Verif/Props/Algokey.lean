import Verif.Model.Algokey
import Verif.Props.Account
import Verif.Props.Address
import Verif.Props.Mnemonic
/-!
# The command line tool
-/

namespace Verif.Props
open Verif Verif.Mnemonic Verif.Account Verif.Algokey

theorem join_eq : ∀ ws, Algokey.join ws = joinSp ws
  | [] => rfl
  | [_] => rfl
  | w :: x :: ws => by rw [Algokey.join, joinSp, join_eq (x :: ws)] <;> simp

/-- What is used about the hash and the key library: their sizes. -/
structure GoodLib (L : Algokey.Lib) : Prop where
  hash : ∀ b, (L.hash b).length = 32
  pub : ∀ b, (L.pubOf b).length = 32

/-- The phrase of a seed: 25 words of the list joined by single spaces, which read back give the seed. -/
theorem phrase_of_seed {L : Algokey.Lib} (hL : GoodLib L) (seed : Bytes) (hs : seed.length = 32) :
    ∃ m, keyToMnemonic englishWords L.hash seed = .ok m ∧
      phraseToKey englishWords L.hash (Algokey.join m) = .ok seed := by
  obtain ⟨m, h1, h2⟩ := C10_phrase_roundtrip L.hash hL.hash seed hs
  exact ⟨m, h1, by rw [join_eq]; exact h2⟩

theorem address_of_seed {L : Algokey.Lib} (hL : GoodLib L) (seed : Bytes) :
    ∃ a, addressOf L seed = .ok a ∧ a.length = 58 ∧ Address.fromStr L.hash a = .ok (L.pubOf seed) := by
  obtain ⟨a, h1, h2, h3⟩ := C12_roundtrip L.hash hL.hash (L.pubOf seed) (hL.pub seed)
  refine ⟨a, ?_, h2, h3⟩
  rw [addressOf, display_ok L.hash hL.hash _ (hL.pub seed)]
  rw [display_ok L.hash hL.hash _ (hL.pub seed)] at h1
  injection h1 with h1
  rw [h1]

theorem writeIfNamed_ok (w : World) (name : Text) (data : Bytes) (hn : name ≠ []) (hw : w.writable name = true) :
    w.writeIfNamed name data = ({ w with files := fun n => if n = name then some data else w.files n }, []) := by
  simp [World.writeIfNamed, World.write, hn, hw]

/-! ## C110 -/

/-- **C110**, `algokey generate`: with two different names that can be written, the key file has the 32 bytes of the
seed, the other one the address of its public key, no other file changes, and the phrase shown is the one of the seed. -/
theorem C110_generate (L : Algokey.Lib) (hL : GoodLib L) (seed : Bytes) (hs : seed.length = 32) (sk pk : Text)
    (h1 : sk ≠ []) (h2 : pk ≠ []) (hne : sk ≠ pk) (w : World) (hw1 : w.writable sk = true) (hw2 : w.writable pk = true) :
    ∃ phrase addr w', Algokey.generate L seed sk pk w = ⟨w', [.mnemonic phrase, .address addr], .done⟩ ∧
      phraseToKey englishWords L.hash phrase = .ok seed ∧
      Address.fromStr L.hash addr = .ok (L.pubOf seed) ∧
      w'.files sk = some seed ∧ w'.files pk = some addr ∧
      (∀ n, n ≠ sk → n ≠ pk → w'.files n = w.files n) ∧ w'.writable = w.writable := by
  obtain ⟨m, m1, m2⟩ := phrase_of_seed hL seed hs
  obtain ⟨a, a1, _, a3⟩ := address_of_seed hL seed
  refine ⟨Algokey.join m, a,
    { w with files := fun n => if n = pk then some a else if n = sk then some seed else w.files n }, ?_, m2, a3, ?_⟩
  · rw [Algokey.generate, m1, a1]
    simp only
    rw [writeIfNamed_ok w sk seed h1 hw1]
    simp only
    rw [writeIfNamed_ok ⟨fun n => if n = sk then some seed else w.files n, w.writable⟩ pk a h2 hw2]
    rfl
  · refine ⟨?_, ?_, ?_, rfl⟩
    · simp [hne]
    · simp
    · intro n n1 n2; simp [n1, n2]

/-- **C110**, `algokey export`: on a file that begins with the 32 bytes of a seed it shows the same phrase and address as
the command that made the key, and writes the same address file. -/
theorem C110_export (L : Algokey.Lib) (hL : GoodLib L) (seed : Bytes) (hs : seed.length = 32) (sk pk : Text) (w0 w1 : World)
    (lines : List Line) (hgen : Algokey.generate L seed [] [] w0 = ⟨w1, lines, .done⟩)
    (w : World) (rest : Bytes) (hf : w.files sk = some (seed ++ rest)) :
    (exportKey L sk [] w = ⟨w, lines, .done⟩) ∧
    (pk ≠ [] → w.writable pk = true →
      ∃ w' addr, exportKey L sk pk w = ⟨w', lines, .done⟩ ∧ .address addr ∈ lines ∧ w'.files pk = some addr ∧
        Address.fromStr L.hash addr = .ok (L.pubOf seed) ∧ ∀ n, n ≠ pk → w'.files n = w.files n) := by
  obtain ⟨m, m1, m2⟩ := phrase_of_seed hL seed hs
  obtain ⟨a, a1, _, a3⟩ := address_of_seed hL seed
  have hload : w.loadSk sk = some seed := by
    simp only [World.loadSk, hf]
    rw [if_pos (by simp [hs]), List.take_append_of_le_length (by omega), List.take_of_length_le (by omega)]
  have hlines : lines = [.mnemonic (Algokey.join m), .address a] := by
    rw [Algokey.generate, m1, a1] at hgen
    simp only [World.writeIfNamed, if_true] at hgen
    injection hgen with _ h _
    rw [← h]; simp
  subst hlines
  constructor
  · rw [exportKey, hload]
    simp only
    rw [m1, a1]
    simp [World.writeIfNamed]
  · intro hp hw
    refine ⟨{ w with files := fun n => if n = pk then some a else w.files n }, a, ?_, by simp, ?_, a3, ?_⟩
    · rw [exportKey, hload]
      simp only
      rw [m1, a1]
      simp only
      rw [writeIfNamed_ok _ pk a hp hw]
      rfl
    · simp
    · intro n hn; simp [hn]

/-- **C110**, `algokey import`: the phrase shown for a seed gives the key file and the address file of that seed again. -/
theorem C110_import (L : Algokey.Lib) (hL : GoodLib L) (seed : Bytes) (hs : seed.length = 32) (w0 w1 : World)
    (phrase : Text) (lines : List Line) (hgen : Algokey.generate L seed [] [] w0 = ⟨w1, .mnemonic phrase :: lines, .done⟩)
    (sk pk : Text) (h1 : sk ≠ []) (h2 : pk ≠ []) (hne : sk ≠ pk) (w : World) (hw1 : w.writable sk = true)
    (hw2 : w.writable pk = true) :
    ∃ w' addr, importKey L phrase sk pk w = ⟨w', .mnemonic phrase :: lines, .done⟩ ∧
      w'.files sk = some seed ∧ w'.files pk = some addr ∧ Address.fromStr L.hash addr = .ok (L.pubOf seed) ∧
      ∀ n, n ≠ sk → n ≠ pk → w'.files n = w.files n := by
  obtain ⟨m, m1, m2⟩ := phrase_of_seed hL seed hs
  obtain ⟨a, a1, _, a3⟩ := address_of_seed hL seed
  have hl : Line.mnemonic phrase :: lines = [.mnemonic (Algokey.join m), .address a] := by
    rw [Algokey.generate, m1, a1] at hgen
    simp only [World.writeIfNamed, if_true] at hgen
    injection hgen with _ h _
    rw [← h]; simp
  injection hl with hp hl
  injection hp with hp
  subst hp; subst hl
  refine ⟨{ w with files := fun n => if n = pk then some a else if n = sk then some seed else w.files n },
    a, ?_, ?_, ?_, a3, ?_⟩
  · rw [importKey, m2]
    simp only
    rw [a1]
    simp only
    rw [writeIfNamed_ok w sk seed h1 hw1]
    simp only
    rw [writeIfNamed_ok ⟨fun n => if n = sk then some seed else w.files n, w.writable⟩ pk a h2 hw2]
    rfl
  · simp [hne]
  · simp
  · intro n n1 n2; simp [n1, n2]

/-- **C110**: whatever phrase `import` accepts, the key file it writes is exported as that phrase up to white space: the
phrase with its words separated by single spaces. -/
theorem C110_import_export (L : Algokey.Lib) (hL : GoodLib L) (phrase sk : Text) (hsk : sk ≠ []) (w w' : World)
    (lines : List Line) (hw : w.writable sk = true) (h : importKey L phrase sk [] w = ⟨w', lines, .done⟩) :
    ∃ addr, exportKey L sk [] w' = ⟨w', [.mnemonic (joinSp (splitWsAux [] phrase)), .address addr], .done⟩ ∧
      lines = [.mnemonic phrase, .address addr] := by
  cases hp : phraseToKey englishWords L.hash phrase with
  | panic => rw [importKey, hp] at h; simp at h
  | err e => rw [importKey, hp] at h; simp at h
  | ok seed =>
    obtain ⟨a, a1, _, a3⟩ := address_of_seed hL seed
    have hk := C11_accepted_is_canonical englishWords englishWords_length englishWords_nodup L.hash hL.hash _ seed hp
    have hlen := ((C11_accepts_iff englishWords englishWords_length englishWords_nodup L.hash hL.hash _ seed).1 hp).1
    rw [importKey, hp] at h
    simp only [a1] at h
    rw [writeIfNamed_ok w sk seed hsk hw] at h
    simp only [World.writeIfNamed, if_true] at h
    injection h with h1 h2 _
    refine ⟨a, ?_, by rw [← h2]; simp⟩
    have hload : w'.loadSk sk = some seed := by
      subst h1
      simp only [World.loadSk, if_true]
      rw [if_pos (by omega), List.take_of_length_le (by omega)]
    rw [exportKey, hload]
    simp only
    rw [hk, a1]
    simp [World.writeIfNamed, join_eq]

/-- With one name for both files the address overwrites the key, without a warning: the file no longer holds the seed, and
exporting it shows the phrase of the first 32 characters of the address. -/
theorem C110_one_name_loses_key (L : Algokey.Lib) (hL : GoodLib L) (seed : Bytes) (hs : seed.length = 32) (f : Text)
    (hf : f ≠ []) (w : World) (hw : w.writable f = true) :
    ∃ phrase phrase' addr addr' w', Algokey.generate L seed f f w = ⟨w', [.mnemonic phrase, .address addr], .done⟩ ∧
      w'.files f = some addr ∧ addr ≠ seed ∧
      exportKey L f [] w' = ⟨w', [.mnemonic phrase', .address addr'], .done⟩ ∧
      phraseToKey englishWords L.hash phrase' = .ok (addr.take 32) := by
  obtain ⟨m, m1, m2⟩ := phrase_of_seed hL seed hs
  obtain ⟨a, a1, a2, a3⟩ := address_of_seed hL seed
  have ht : (a.take 32).length = 32 := by simp [a2]
  obtain ⟨m', m1', m2'⟩ := phrase_of_seed hL (a.take 32) ht
  obtain ⟨a', a1', _, _⟩ := address_of_seed hL (a.take 32)
  refine ⟨Algokey.join m, Algokey.join m', a, a',
    { w with files := fun n => if n = f then some a else if n = f then some seed else w.files n }, ?_, ?_, ?_, ?_, m2'⟩
  · rw [Algokey.generate, m1, a1]
    simp only
    rw [writeIfNamed_ok w f seed hf hw]
    simp only
    rw [writeIfNamed_ok ⟨fun n => if n = f then some seed else w.files n, w.writable⟩ f a hf hw]
    rfl
  · simp
  · intro e; rw [e] at a2; omega
  · rw [exportKey]
    simp only [World.loadSk, if_true]
    rw [if_pos (by omega)]
    simp only
    rw [m1', a1']
    simp [World.writeIfNamed]

/-- A toy library. -/
def toyKeyLib : Algokey.Lib := ⟨fun b => (b ++ List.replicate 32 7).take 32, fun b => (b ++ List.replicate 32 1).take 32⟩

theorem toyKeyLib_good : GoodLib toyKeyLib :=
  ⟨fun b => by simp [toyKeyLib], fun b => by simp [toyKeyLib]⟩

example : ∃ phrase addr w', Algokey.generate toyKeyLib (List.replicate 32 9) ['a'] ['b'] ⟨fun _ => none, fun _ => true⟩ =
    ⟨w', [.mnemonic phrase, .address addr], .done⟩ ∧ w'.files ['a'] = some (List.replicate 32 9) := by
  obtain ⟨p, a, w, h1, _, _, h2, _⟩ := C110_generate toyKeyLib toyKeyLib_good (List.replicate 32 9) (by simp) ['a'] ['b']
    (by simp) (by simp) (by simp) ⟨fun _ => none, fun _ => true⟩ rfl rfl
  exact ⟨p, a, w, h1, h2⟩

/-! ## C111: failures of these commands -/

/-- **C111** holds for the phrase: `import` completes exactly for the phrases that are valid; otherwise the process ends
with a failure, an error is shown and no file is touched. -/
theorem C111_invalid_phrase_partial (L : Algokey.Lib) (hL : GoodLib L) (phrase sk pk : Text) (w : World) :
    ((importKey L phrase sk pk w).exit = .done ↔ ∃ seed, phraseToKey englishWords L.hash phrase = .ok seed) ∧
    ((importKey L phrase sk pk w).exit ≠ .done →
      (importKey L phrase sk pk w).world = w ∧ .error ∈ (importKey L phrase sk pk w).lines) := by
  cases hp : phraseToKey englishWords L.hash phrase with
  | panic => exact absurd hp (C11_phrase_never_panics L.hash hL.hash phrase)
  | err e => simp [importKey, hp]
  | ok seed =>
    obtain ⟨a, a1, _, _⟩ := address_of_seed hL seed
    simp [importKey, hp, a1]

/-- **C111** holds for `export`: it completes exactly if the key file has at least 32 bytes, and else changes nothing. -/
theorem C111_export_partial (L : Algokey.Lib) (hL : GoodLib L) (sk pk : Text) (w : World) :
    ((exportKey L sk pk w).exit = .done ↔ ∃ b, w.files sk = some b ∧ 32 ≤ b.length) ∧
    ((exportKey L sk pk w).exit ≠ .done → (exportKey L sk pk w).world = w) := by
  cases hf : w.files sk with
  | none => simp [exportKey, World.loadSk, hf]
  | some b =>
    by_cases hb : 32 ≤ b.length
    · obtain ⟨m, m1, m2⟩ := phrase_of_seed hL (b.take 32) (by simp [hb])
      obtain ⟨a, a1, _, _⟩ := address_of_seed hL (b.take 32)
      simp [exportKey, World.loadSk, hf, hb, m1, a1]
    · simp [exportKey, World.loadSk, hf, hb]

/-- **C111** is violated: when the key file cannot be written, `generate` and `import` still end normally, and the key is
in no file. -/
theorem C111_violated (L : Algokey.Lib) (hL : GoodLib L) (seed : Bytes) (hs : seed.length = 32) (sk : Text) (hsk : sk ≠ [])
    (w : World) (hw : w.writable sk = false) :
    (∃ lines, Algokey.generate L seed sk [] w = ⟨w, lines, .done⟩) ∧
    (∀ phrase, phraseToKey englishWords L.hash phrase = .ok seed →
      ∃ lines, importKey L phrase sk [] w = ⟨w, lines, .done⟩) := by
  obtain ⟨m, m1, m2⟩ := phrase_of_seed hL seed hs
  obtain ⟨a, a1, _, a3⟩ := address_of_seed hL seed
  constructor
  · refine ⟨[.mnemonic (Algokey.join m), .address a] ++ [.error] ++ [], ?_⟩
    rw [Algokey.generate, m1, a1]
    simp [World.writeIfNamed, World.write, hsk, hw]
  · intro phrase hp
    refine ⟨[.mnemonic phrase, .address a] ++ [.error] ++ [], ?_⟩
    rw [importKey, hp]
    simp [a1, World.writeIfNamed, World.write, hsk, hw]

example : (List.replicate 32 (9 : UInt8)).length = 32 ∧ (['a'] : Text) ≠ [] ∧
    (World.mk (fun _ => none) (fun _ => false)).writable ['a'] = false := ⟨by simp, by simp, rfl⟩

/-! ## C112: signing -/

/-- **C112** is violated: `algokey sign` never completes and never writes a file, whatever the arguments and files are
and even if the library accepted the key. -/
theorem C112_never_signs {S : Multisig.Scheme} (L : Algokey.Lib) (K : Keys S) (signTx : S.Sk → Bytes → Option Bytes)
    (skFile phrase txFile outFile : Text) (w : World) :
    (Algokey.sign L K signTx skFile phrase txFile outFile w).exit ≠ .done ∧
    (Algokey.sign L K signTx skFile phrase txFile outFile w).world = w := by
  have hload : ∀ e, loadKeyfileOrMnemonic L skFile phrase w = .error e → e ≠ .done := by
    intro e he
    rw [loadKeyfileOrMnemonic] at he
    repeat' split at he
    all_goals first | (injection he with he; subst he; simp) | cases he
  rw [Algokey.sign]
  split
  · rename_i e he; exact ⟨hload e he, rfl⟩
  · split
    · exact ⟨by simp, rfl⟩
    · split
      · exact ⟨by simp, rfl⟩
      · split
        · exact ⟨by simp, rfl⟩
        · rename_i stx _
          cases ho : w.openRead outFile with
          | none => exact ⟨by simp, rfl⟩
          | some h =>
            have hh : h.canWrite = false := by
              simp only [World.openRead, Option.map_eq_some_iff] at ho
              obtain ⟨_, _, rfl⟩ := ho
              rfl
            simp [World.writeHandle, hh]

/-- The first reason: with a valid key file or phrase, the 32 bytes of the seed are not a key pair for the library, so the
command panics before it reads the transaction. -/
theorem C112_key_refused {S : Multisig.Scheme} (L : Algokey.Lib) (hL : GoodLib L) {K : Keys S} (hK : GoodKeys K)
    (signTx : S.Sk → Bytes → Option Bytes) (txFile outFile : Text) (w : World) :
    (∀ skFile b, skFile ≠ [] → w.files skFile = some b → 32 ≤ b.length →
      Algokey.sign L K signTx skFile [] txFile outFile w = ⟨w, [], .panicked⟩) ∧
    (∀ phrase seed, phrase ≠ [] → phraseToKey englishWords L.hash phrase = .ok seed →
      Algokey.sign L K signTx [] phrase txFile outFile w = ⟨w, [], .panicked⟩) := by
  have hno : ∀ b : Bytes, b.length = 32 → K.skOf b = none := by
    intro b hb
    cases hs : K.skOf b with
    | none => rfl
    | some sk => have := hK.sk_len b sk hs; omega
  constructor
  · intro skFile b hne hf hb
    have : loadKeyfileOrMnemonic L skFile [] w = .ok (b.take 32) := by
      simp [loadKeyfileOrMnemonic, hne, World.loadSk, hf, hb]
    rw [Algokey.sign, this]
    simp only
    rw [hno _ (by simp [hb])]
  · intro phrase seed hne hp
    have hlen := ((C11_accepts_iff englishWords englishWords_length englishWords_nodup L.hash hL.hash _ seed).1 hp).1
    have : loadKeyfileOrMnemonic L [] phrase w = .ok seed := by
      simp [loadKeyfileOrMnemonic, hne, hp]
    rw [Algokey.sign, this]
    simp only
    rw [hno _ hlen]

/-- **C112**, what holds: giving both a key file and a phrase, or neither, is refused with a message. Missing: everything
else, no transaction is ever signed. -/
theorem C112_one_source_partial {S : Multisig.Scheme} (L : Algokey.Lib) (K : Keys S) (signTx : S.Sk → Bytes → Option Bytes)
    (skFile phrase txFile outFile : Text) (h : skFile = [] ↔ phrase = []) (w : World) :
    Algokey.sign L K signTx skFile phrase txFile outFile w = ⟨w, [.error], .failed⟩ := by
  have : loadKeyfileOrMnemonic L skFile phrase w = .error .failed := by
    rw [loadKeyfileOrMnemonic]
    by_cases hs : skFile = []
    · simp [hs, h.1 hs]
    · have hp : phrase ≠ [] := fun e => hs (h.2 e)
      simp [hs, hp]
  rw [Algokey.sign, this]

/-! ## Cases -/

/-- A file system that has only the key file `a`, and where every file can be written. -/
def toyDisk (key : Bytes) : World := ⟨fun n => if n = ['a'] then some key else none, fun _ => true⟩

/-- What `generate` prints for the toy library. -/
theorem toyGen (seed : Bytes) (hs : seed.length = 32) (w : World) : ∃ phrase addr, Algokey.generate toyKeyLib seed [] [] w =
    ⟨w, [.mnemonic phrase, .address addr], .done⟩ ∧ phraseToKey englishWords toyKeyLib.hash phrase = .ok seed := by
  obtain ⟨m, m1, m2⟩ := phrase_of_seed toyKeyLib_good seed hs
  obtain ⟨a, a1, _⟩ := address_of_seed toyKeyLib_good seed
  refine ⟨Algokey.join m, a, ?_, m2⟩
  rw [Algokey.generate, m1, a1]
  rfl

/-- A case of `C110_export`: the key file has a longer content; its first 32 bytes are the key. -/
example : ∃ lines, exportKey toyKeyLib ['a'] [] (toyDisk (List.replicate 32 9 ++ [1, 2])) =
    ⟨toyDisk (List.replicate 32 9 ++ [1, 2]), lines, .done⟩ := by
  obtain ⟨p, l, h, _⟩ := toyGen (List.replicate 32 9) (by decide) (toyDisk [])
  exact ⟨_, (C110_export toyKeyLib toyKeyLib_good _ (by decide) ['a'] ['b'] _ _ _ h _ [1, 2] rfl).1⟩

/-- A case of `C110_import`: the printed phrase imported into the files `a` and `b`. -/
example : ∃ phrase w' addr, importKey toyKeyLib phrase ['a'] ['b'] (toyDisk []) = ⟨w', [.mnemonic phrase, .address addr], .done⟩ ∧
    w'.files ['a'] = some (List.replicate 32 9) := by
  obtain ⟨p, l, h, _⟩ := toyGen (List.replicate 32 9) (by decide) (toyDisk [])
  obtain ⟨w', addr, h1, h2, _⟩ := C110_import toyKeyLib toyKeyLib_good _ (by decide) _ _ p _ h ['a'] ['b'] (by decide)
    (by decide) (by decide) (toyDisk []) rfl rfl
  exact ⟨p, w', l, h1, h2⟩

/-- A case of `C111_invalid_phrase_partial` and `C110_import_export`: the phrase of a key imported into the file `a`, and
exported again. -/
example : ∃ phrase w' lines addr, importKey toyKeyLib phrase ['a'] [] (toyDisk []) = ⟨w', lines, .done⟩ ∧
    exportKey toyKeyLib ['a'] [] w' = ⟨w', [.mnemonic (joinSp (splitWsAux [] phrase)), .address addr], .done⟩ := by
  obtain ⟨p, l, _, hp⟩ := toyGen (List.replicate 32 9) (by decide) (toyDisk [])
  have h := (C111_invalid_phrase_partial toyKeyLib toyKeyLib_good p ['a'] [] (toyDisk [])).1.2 ⟨_, hp⟩
  cases he : importKey toyKeyLib p ['a'] [] (toyDisk []) with
  | mk w' lines exit =>
    rw [he] at h
    simp only at h
    subst h
    obtain ⟨addr, h1, _⟩ := C110_import_export toyKeyLib toyKeyLib_good p ['a'] (by decide) _ _ _ rfl he
    exact ⟨p, w', lines, addr, he, h1⟩

/-- Another case of `C111_invalid_phrase_partial`: one word is no phrase, and nothing is written. -/
example : (importKey toyKeyLib "abandon".toList ['a'] ['b'] (toyDisk [])).world = toyDisk [] := by
  refine ((C111_invalid_phrase_partial toyKeyLib toyKeyLib_good "abandon".toList ['a'] ['b'] (toyDisk [])).2 fun h => ?_).1
  obtain ⟨seed, hs⟩ := (C111_invalid_phrase_partial toyKeyLib toyKeyLib_good "abandon".toList ['a'] ['b'] (toyDisk [])).1.1 h
  rw [phraseToKey, C11_wrong_length _ _ _ (by decide)] at hs
  cases hs

/-- A case of `C111_export_partial`: a key file of 31 bytes. -/
example : (exportKey toyKeyLib ['a'] ['b'] (toyDisk (List.replicate 31 9))).exit ≠ .done := by
  rw [ne_eq, (C111_export_partial toyKeyLib toyKeyLib_good ['a'] ['b'] (toyDisk (List.replicate 31 9))).1]
  rintro ⟨b, h1, h2⟩
  rw [show (toyDisk (List.replicate 31 9)).files ['a'] = some (List.replicate 31 9) from rfl] at h1
  injection h1 with h1
  subst h1
  exact absurd h2 (by decide)

/-- A case of `C112_key_refused`: signing with the key file `a`. -/
example (signTx : UInt8 → Bytes → Option Bytes) : Algokey.sign toyKeyLib byteKeys signTx ['a'] [] ['t'] ['o']
    (toyDisk (List.replicate 32 9)) = ⟨toyDisk (List.replicate 32 9), [], .panicked⟩ :=
  (C112_key_refused toyKeyLib toyKeyLib_good byteKeys_good signTx ['t'] ['o'] _).1 ['a'] _ (by decide) rfl (by decide)

/-- A case of `C112_one_source_partial`: neither a file nor a phrase. -/
example (signTx : UInt8 → Bytes → Option Bytes) : Algokey.sign toyKeyLib byteKeys signTx [] [] ['t'] ['o'] (toyDisk []) =
    ⟨toyDisk [], [.error], .failed⟩ :=
  C112_one_source_partial _ _ _ _ _ _ _ Iff.rfl _

end Verif.Props
