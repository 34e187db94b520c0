import Verif.Model.Ed25519
/-!
# VRF test vectors of the repository on the model (vrf.rs lines 294-351), and test vectors of RFC 8032 (7.1) for signatures
-/

namespace Verif.Validation
open Verif Verif.Vrf Verif.Curve

def hexDigit (c : Char) : Nat := if c.toNat < 58 then c.toNat - 48 else c.toNat - 87

def unhex : List Char → Bytes
  | a :: b :: r => UInt8.ofNat (hexDigit a * 16 + hexDigit b) :: unhex r
  | _ => []

/-- `test_vector` (vrf.rs lines 322-351). -/
def vrfVector (sk pk alpha point proof out : String) : Bool :=
  let kp := fromSeed ed25519 (unhex sk.toList)
  let msg := unhex alpha.toList
  kp.pub == unhex pk.toList && compress (hashToCurve ed25519 kp.pub msg) == unhex point.toList &&
    proveBytes ed25519 kp msg == unhex proof.toList &&
    (match verifyBytes ed25519 kp.pub (unhex proof.toList) msg with
      | .ok b => b == unhex out.toList
      | _ => false)

#guard vrfVector "9d61b19deffd5a60ba844af492ec2cc44449c5697b326919703bac031cae7f60"
  "d75a980182b10ab7d54bfed3c964073a0ee172f3daa62325af021a68f707511a" ""
  "1c5672d919cc0a800970cd7e05cb36ed27ed354c33519948e5a9eaf89aee12b7"
  "b6b4699f87d56126c9117a7da55bd0085246f4c56dbc95d20172612e9d38e8d7ca65e573a126ed88d4e30a46f80a666854d675cf3ba81de0de043c3774f061560f55edc256a787afe701677c0f602900"
  "5b49b554d05c0cd5a5325376b3387de59d924fd1e13ded44648ab33c21349a603f25b84ec5ed887995b33da5e3bfcb87cd2f64521c4c62cf825cffabbe5d31cc"

#guard vrfVector "4ccd089b28ff96da9db6c346ec114e0f5b8a319f35aba624da8cf6ed4fb8a6fb"
  "3d4017c3e843895a92b70aa74d1b7ebc9c982ccf2ec4968cc0cd55f12af4660c" "72"
  "86725262c971bf064168bca2a87f593d425a49835bd52beb9f52ea59352d80fa"
  "ae5b66bdf04b4c010bfe32b2fc126ead2107b697634f6f7337b9bff8785ee111200095ece87dde4dbe87343f6df3b107d91798c8a7eb1245d3bb9c5aafb093358c13e6ae1111a55717e895fd15f99f07"
  "94f4487e1b2fec954309ef1289ecb2e15043a2461ecc7b2ae7d4470607ef82eb1cfa97d84991fe4a7bfdfd715606bc27e2967a6c557cfb5875879b671740b7d8"

#guard vrfVector "c5aa8df43f9f837bedb7442f31dcb7b166d38535076f094b85ce3a2e0b4458f7"
  "fc51cd8e6218a1a38da47ed00230f0580816ed13ba3303ac5deb911548908025" "af82"
  "9d8663faeb6ab14a239bfc652648b34f783c2e99f758c0e1b6f4f863f9419b56"
  "dfa2cba34b611cc8c833a6ea83b8eb1bb5e2ef2dd1b0c481bc42ff36ae7847f6ab52b976cfd5def172fa412defde270c8b8bdfbaae1c7ece17d9833b1bcf31064fff78ef493f820055b561ece45e1009"
  "2031837f582cd17a9af9e0c7ef5a6540e3453ed894b62c293686ca3c1e319dde9d0aa489a4b59a9594fc2328bc3deff3c8a0929a369a72b1180a596e016b5ded"

/-- A test of RFC 8032, 7.1: key, signature, and that both kinds of verification accept it, but not for another message. -/
def sigVector (sk pk msg sig : String) : Bool :=
  let seed := unhex sk.toList
  let m := unhex msg.toList
  let s := unhex sig.toList
  Sig.publicKey seed == unhex pk.toList && Sig.sign seed m == s && Sig.verify (unhex pk.toList) m s &&
    Sig.verifyStrict (unhex pk.toList) m s && !Sig.verify (unhex pk.toList) (m ++ [0]) s &&
    !Sig.verifyStrict (unhex pk.toList) (m ++ [0]) s

#guard sigVector "9d61b19deffd5a60ba844af492ec2cc44449c5697b326919703bac031cae7f60"
  "d75a980182b10ab7d54bfed3c964073a0ee172f3daa62325af021a68f707511a" ""
  "e5564300c360ac729086e2cc806e828a84877f1eb8e5d974d873e065224901555fb8821590a33bacc61e39701cf9b46bd25bf5f0595bbe24655141438e7a100b"

#guard sigVector "4ccd089b28ff96da9db6c346ec114e0f5b8a319f35aba624da8cf6ed4fb8a6fb"
  "3d4017c3e843895a92b70aa74d1b7ebc9c982ccf2ec4968cc0cd55f12af4660c" "72"
  "92a009a9f0d4cab8720e820b5f642540a2b27b5416503f8fb3762223ebdb69da085ac1e43e15996e458f3613d0f11d8c387b2eaeb4302aeeb00d291612bb0c00"

#guard sigVector "c5aa8df43f9f837bedb7442f31dcb7b166d38535076f094b85ce3a2e0b4458f7"
  "fc51cd8e6218a1a38da47ed00230f0580816ed13ba3303ac5deb911548908025" "af82"
  "6291d657deec24024827e69c3abe01a30ce548a284743a445e3680d7db5ac3ac18ff9b538d16f290ae67f760984dc6594a7c15e9716ed28dc027beceea1ec40a"

end Verif.Validation
