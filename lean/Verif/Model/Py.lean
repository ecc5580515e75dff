/-!
# Python values used throughout the model

`bytes`/`bytearray` are `List UInt8`, `str` is `List Char`, `int` is `Int` (or `Nat` once known non-negative), an
exception is a value of `Err` naming its class (messages are dropped).
-/

namespace TF

/-- `bytes` / `bytearray`. -/
abbrev Bytes := List UInt8

/-- `str` (a sequence of code points). -/
abbrev Str := List Char

/-- Exception classes raised by the modelled code.
`tfchain/errors.py`, `tfchain/encoders/exceptions.py:4-13`, and Python built-ins. -/
inductive Err
  -- encoders/exceptions.py
  | integerOutOfRange
  | sliceLengthOutOfRange
  -- Python built-ins
  | exception
  | typeError
  | valueError
  | nameError
  | attributeError
  | indexError
  | keyError
  | overflowError
  | assertionError
  | decimalInvalidOperation
  -- errors.py
  | currencyPrecisionOverflow
  | currencyNegativeValue
  | doubleSignatureError
  | unknownTransactionVersion
  | invalidPublicKeySpecifier
  | insufficientFunds
  | insufficientWalletBalance
  | explorerNoContent
  | explorerNotAvailable
  | explorerServerError
  | explorerInvalidResponse
  | explorerServerPostError
  | explorerUserError
  | httpError (status : Int)
  | atomicSwapContractNotFound
  | atomicSwapContractSpent
  | atomicSwapContractInvalid
  | atomicSwapForbidden
  | atomicSwapInvalidSecret
  | atomicSwapInsufficientAmount
  | threeBotNotFound
  | threeBotInactive
  | erc20NotFound
  deriving DecidableEq, Repr, Inhabited

/-- Result of a call that may raise. -/
abbrev Res (α : Type) := Except Err α

deriving instance DecidableEq for Except

/-- `int.to_bytes(n, byteorder='little')` for `0 ≤ v < 256^n` (callers guard the range; CPython raises
`OverflowError` otherwise, which is unreachable in the modelled code). -/
def toBytesLE : Nat → Nat → Bytes
  | 0, _ => []
  | n+1, v => UInt8.ofNat (v % 256) :: toBytesLE n (v / 256)

/-- `int.to_bytes(n, byteorder='big')`. -/
def toBytesBE (n v : Nat) : Bytes := (toBytesLE n v).reverse

/-- `str.encode('utf-8')`. Lone surrogates, which CPython refuses, are not `Char`s. -/
def utf8 (s : Str) : Bytes := s.flatMap String.utf8EncodeChar

end TF
