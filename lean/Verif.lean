import Verif.Model.Py
import Verif.Model.Encoders
import Verif.Model.Merkle
import Verif.Props.Encoders
import Verif.Props.Merkle
import Verif.Model.Primitive
import Verif.Lemmas.Text
import Verif.Lemmas.Currency
import Verif.Props.Primitive
import Verif.Model.Conditions
import Verif.Model.Crypto
import Verif.Model.Fulfillments
import Verif.Lemmas.SelfDelim
import Verif.Lemmas.Address
import Verif.Props.Conditions
import Verif.Spec.Signing
import Verif.Props.Fulfillments
import Verif.Model.Regex
import Verif.Model.ThreeBot
import Verif.Model.IO
import Verif.Model.Transactions
import Verif.Model.TxJson
import Verif.Model.TxBuild
import Verif.Spec.TxSpec
import Verif.Props.Signing
import Verif.Props.TxBuild
import Verif.Spec.Regex
import Verif.Lemmas.Regex
import Verif.Spec.Ip
import Verif.Spec.Full
import Verif.Props.ThreeBot
import Verif.Props.TxJson
import Verif.Spec.Contents
import Verif.Lemmas.Agree
import Verif.Props.Preimage
import Verif.Model.Balance
import Verif.Model.Keys
import Verif.Model.Wallet
import Verif.Spec.Wallet
import Verif.Lemmas.Balance
import Verif.Props.Balance
import Verif.Lemmas.NoIns
import Verif.Lemmas.Fund
import Verif.Props.Fund
import Verif.Props.FundSingle
import Verif.Props.Drain
import Verif.Props.Merge
import Verif.Spec.Payment
import Verif.Lemmas.WalletSign
import Verif.Lemmas.Bare
import Verif.Lemmas.Overflow
import Verif.Props.Payment
import Verif.Model.WalletOps
import Verif.Props.WalletOps
import Verif.Spec.Ops
import Verif.Props.Bots
import Verif.Props.Mint
import Verif.Props.Amount
import Verif.Props.SignForeign
import Verif.Props.Deliver
import Verif.Props.Swap
import Verif.Props.Keys
import Verif.Model.Explorer
import Verif.Model.Client
import Verif.Props.Explorer
import Verif.Props.Client
import Verif.Props.Lookup
import Verif.Props.History
import Verif.Props.WalletBalance
import Verif.Props.Swap2
import Verif.Props.Encodable
import Verif.Props.Live
import Verif.Props.Redeem
import Verif.Props.Duration
import Verif.Props.ChainInfo
import Verif.Props.Confirmed
import Verif.Props.Submit
import Verif.Props.Connect
import Verif.Props.Report
import Verif.Props.LiveBots
import Verif.Props.Huge
import Verif.Props.Vectors
import Verif.Spec.Wire
import Verif.Lemmas.Wire
import Verif.Props.Wire
import Verif.Spec.Legacy
import Verif.Props.Legacy
import Verif.Spec.Asked
import Verif.Props.Answers
import Verif.Props.Asked
import Verif.Model.Sharing
import Verif.Spec.Numeral
import Verif.Spec.Sharing
import Verif.Props.Numeral
import Verif.Props.Sharing
import Verif.Model.Fields
import Verif.Spec.Fields
import Verif.Props.Fields
import Verif.Model.Amounts
import Verif.Spec.Amounts
import Verif.Props.Amounts
import Verif.Lemmas.Rounding
import Verif.Props.Rounding
import Verif.Model.Contract
import Verif.Spec.Contract
import Verif.Props.Contract
import Verif.Model.Compare
import Verif.Spec.Compare
import Verif.Props.Compare
import Verif.Model.BalanceObjects
import Verif.Spec.BalanceObjects
import Verif.Props.BalanceObjects
import Verif.Spec.Chain
import Verif.Props.Chain
import Verif.Props.ChainSwap
import Verif.Spec.Circulation
import Verif.Props.Circulation
import Verif.Model.JsonText
import Verif.Spec.JsonText
import Verif.Props.JsonText
import Verif.Model.Words
import Verif.Model.Errors
import Verif.Spec.Words
import Verif.Props.Words
import Verif.Spec.Errors
import Verif.Props.Errors
import Verif.Props.Observed
import Verif.Model.Stakes
import Verif.Spec.Stakes
import Verif.Props.Stakes
import Verif.Spec.CurrencyText
import Verif.Props.CurrencyText
import Verif.Spec.Circulate
import Verif.Props.Circulate
import Verif.Spec.Reading
import Verif.Props.Reading
import Verif.Props.ReadingTx
import Verif.Spec.HostName
import Verif.Spec.Base64
import Verif.Props.HostName
import Verif.Props.Base64
import Verif.Model.Ip
import Verif.Spec.IpText
import Verif.Props.Ip
import Verif.Model.Calendar
import Verif.Spec.Calendar
import Verif.Props.Calendar
import Verif.Model.Float
import Verif.Spec.Float
import Verif.Lemmas.Float
import Verif.Props.Float
import Verif.Model.Moment
import Verif.Spec.Moment
import Verif.Props.Moment
import Verif.Model.Url
import Verif.Spec.Url
import Verif.Props.Url
import Verif.Spec.Open
import Verif.Props.Open
import Verif.Spec.Arrive
import Verif.Props.Arrive
import Verif.Props.Spendable
import Verif.Spec.Release
import Verif.Props.Release
import Verif.Spec.Exchange
import Verif.Props.Exchange
import Verif.Spec.Means
import Verif.Props.SpendableOps
import Verif.Props.Opening
