import Verif.V2.Sample
import Verif.Base.Custody
import Verif.Base.Stuck
import Verif.V2.PropsSale
import Verif.V2.PropsFunds
import Verif.V2.PropsQuery
import Verif.V2.PropsOrders
import Verif.V2.PropsBook
import Verif.V2.PropsLive
import Verif.Auction.PropsLife
import Verif.Auction.PropsFunds
import Verif.Auction.PropsHooks
import Verif.Auction.PropsBook
import Verif.Auction.PropsQuery
import Verif.Auction.PropsLive
import Verif.V1.PropsSale
import Verif.V1.PropsFunds
import Verif.V1.PropsQuery
import Verif.V1.PropsQueryMore
import Verif.V1.PropsOrders
import Verif.V1.PropsAdmin
import Verif.V1.PropsLive
import Verif.V1.PropsManage
import Verif.Base.Kv
import Verif.Base.KvBounds
import Verif.Base.KvList
import Verif.V2.Store
import Verif.V2.PropsStore
import Verif.Auction.Store
import Verif.Auction.PropsStore
import Verif.V1.Store
import Verif.V1.PropsStore
import Verif.V1.PropsStoreMore
import Verif.Base.Event
import Verif.V2.Events
import Verif.V2.EventLemmas
import Verif.V2.EventSpec
import Verif.V2.PropsEvents
import Verif.Base.EventNum
import Verif.Auction.Events
import Verif.Auction.EventLemmas
import Verif.Auction.EventSpec
import Verif.Auction.PropsEvents
import Verif.Auction.PropsWatch
import Verif.V1.Events
import Verif.V1.EventLemmas
import Verif.V1.EventSpec
import Verif.V1.PropsEvents
import Verif.V1.PropsTold
import Verif.Common.Migrate
import Verif.Common.PropsMigrate
import Verif.Base.Ledger
import Verif.V2.PropsLedger
import Verif.Auction.PropsLedger
import Verif.V1.PropsLedger
import Verif.Auction.PropsDrain
import Verif.Base.Keep
import Verif.V2.PropsAlone
import Verif.Auction.PropsAlone
import Verif.V1.PropsAlone
import Verif.Base.Purse
import Verif.V2.PropsPurse
import Verif.Auction.PropsPurse
import Verif.V1.PropsPurse
import Verif.V2.PropsSigned
import Verif.V1.PropsSigned
import Verif.Auction.PropsSigned
import Verif.V2.PropsFair
import Verif.Auction.PropsClock
import Verif.Auction.PropsCost
import Verif.Auction.PropsBlocks
import Verif.V1.PropsBlocks
import Verif.V2.PropsBlocks
import Verif.Base.Together
import Verif.Common.PropsTogether
import Verif.V2.PropsDepth
import Verif.V2.Hash
import Verif.V2.PropsHash
import Verif.Base.Refuse
import Verif.Auction.PropsRefuse
import Verif.V2.PropsRefuse
import Verif.V1.PropsRefuse
import Verif.Base.Strand
import Verif.V2.PropsStrand
import Verif.Auction.PropsStrand
import Verif.V1.PropsStrand
import Verif.V2.PropsLater
import Verif.V1.PropsLater
import Verif.V2.PropsView
import Verif.Auction.PropsView
import Verif.V1.PropsView
import Verif.V2.PropsTour
import Verif.Auction.PropsTour
import Verif.V1.PropsTour
import Verif.Base.OneKey
import Verif.V2.PropsSize
import Verif.Auction.PropsSize
import Verif.V1.PropsSize
import Verif.V2.PropsRedo
import Verif.Auction.PropsRedo
import Verif.V1.PropsRedo
import Verif.V1.PropsReturn
import Verif.V1.PropsExpired
import Verif.Auction.PropsRules
import Verif.V2.PropsAccepts
import Verif.V1.PropsAccepts
import Verif.Auction.PropsAccepts
import Verif.V2.PropsGovern
import Verif.V1.PropsGovern
import Verif.Auction.PropsGovern
import Verif.V2.PropsShown
import Verif.Auction.PropsShown
import Verif.V2.PropsNamed
import Verif.V2.PropsOnce
import Verif.Auction.PropsOnce
import Verif.V2.PropsTwice
import Verif.V1.PropsTwice
import Verif.Auction.PropsSettler
import Verif.V1.PropsLapsed
import Verif.V2.PropsChange
import Verif.V2.PropsLimit
