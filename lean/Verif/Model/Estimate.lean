import Verif.Model.BlockRead
/-!
# Sizes of transactions (src/data/transactions/{transaction,signed_tx}.rs)
-/

namespace Verif.Codec
open Verif Verif.Msgpack Verif.Tx Verif.Block

/-- `estimate_encoded_size` (transaction.rs lines 564-577): a constant. -/
def estimateEncodedSize (_ : Transaction) : Nat := 200

/-- `get_encoded_length` of a `SignedTx` (signed_tx.rs lines 61-64). -/
def stxEncodedLength (s : SignedTx) : Nat := (enc (stxMP s)).length

/-- `get_encoded_length` of a `SignedTxInBlock` (signed_tx.rs lines 79-82). -/
def stibEncodedLength (s : Stib ApplyData) : Nat := (enc (stibMP adCodec s)).length

end Verif.Codec
