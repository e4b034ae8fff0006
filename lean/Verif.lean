import Verif.Props.Packing
import Verif.Props.Base58
import Verif.Props.Work
import Verif.Props.Daa
import Verif.Props.Storage
import Verif.Props.StorageKeys
import Verif.Props.Secp256k1
import Verif.Props.Chain
import Verif.Props.ChainExample
import Verif.Props.Order
import Verif.Props.OrderExample
import Verif.Props.Concrete
import Verif.Props.Crash
import Verif.Props.Script
import Verif.Props.AsmText
import Verif.Props.Tx
import Verif.Props.Sighash
import Verif.Props.Signature
import Verif.Props.Keys
import Verif.Props.KeyMath
import Verif.Props.Difficulty
import Verif.Props.Display
import Verif.Props.Ecies
import Verif.Props.Message
import Verif.Props.KeySign
import Verif.Props.Base64
import Verif.Props.CashErrors
import Verif.Props.Cashaddr
import Verif.Props.Address
import Verif.Props.Classify
import Verif.Props.Bip32
import Verif.Props.Bip32Key
import Verif.Props.Bip32Path
import Verif.Props.TextForms
import Verif.Props.Networks
import Verif.Props.Objects
import Verif.Props.Json
import Verif.Props.Bip39
import Verif.Props.ElectrumNew
import Verif.Props.ElectrumOld
import Verif.Props.Wordlists
import Verif.Props.History
import Verif.Props.HistoryExample
import Verif.Props.KeyScripts
import Verif.Props.OpenFile
import Verif.Props.OpenFileExample
import Verif.Props.Seeds
import Verif.Props.WordlistCache
import Verif.Props.Inherited
import Verif.Props.Damage
import Verif.Model.Concurrent
import Verif.Spec.Concurrent
import Verif.Lemmas.Concurrent
import Verif.Props.Concurrent
import Verif.Spec.Spending
import Verif.Props.Spending
import Verif.Props.Shared
import Verif.Props.Wallet
import Verif.Props.Cosigners
import Verif.Props.Decay
import Verif.Props.Fortnight
import Verif.Props.Reorg
import Verif.Props.Minimum
import Verif.Model.Caching
import Verif.Props.Caching
import Verif.Model.Optional
import Verif.Props.Optional
import Verif.Props.Branches
import Verif.Spec.Hearing
import Verif.Props.Hearing
import Verif.Props.Price
import Verif.Props.TxId
import Verif.Props.Times
import Verif.Spec.Leak
import Verif.Props.Leak
import Verif.Props.Locks
import Verif.Spec.Paths
import Verif.Props.Paths
import Verif.Props.Ambiguity
