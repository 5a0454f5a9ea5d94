import Verif.Core
import Verif.Contract
import Verif.Model.Util
import Verif.Model.Middleware
import Verif.Model.Hedge
import Verif.Model.Semaphore
import Verif.Model.Budget
import Verif.Model.Rng
import Verif.Model.Backoff
import Verif.Proof.Safety
import Verif.Proof.Safety2
import Verif.Spec.Trace
import Verif.Props.C01_Contract
import Verif.Props.C04_Concurrency
import Verif.Props.C07_RateLimit
import Verif.Props.C09_LoadShed
import Verif.Props.C10_Timeout
import Verif.Props.C11_Retry
import Verif.Props.C13_Budget
import Verif.Props.C16_Conc
import Verif.Props.C15_Grants
import Verif.Props.C16_Ledger
import Verif.Props.C22_Refused
import Verif.Props.C17_Backoff
import Verif.Props.C35_Rng
import Verif.Props.C39_Hedge
import Verif.Props.C42_Reconnect
import Verif.Props.C44_SpawnReady
import Verif.Props.C45_Steer
import Verif.Props.C50_Oneshot
import Verif.Props.C52_Combinators
import Verif.Model.Layer
import Verif.Model.Histogram
import Verif.Props.C51_Layers
import Verif.Props.C41_Histogram
import Verif.Model.Buffer
import Verif.Spec.BufferSpec
import Verif.Proof.Buffer1
import Verif.Proof.Buffer2
import Verif.Proof.Buffer3
import Verif.Proof.Buffer4
import Verif.Proof.Buffer5
import Verif.Proof.Buffer6
import Verif.Proof.Buffer7
import Verif.Props.C19_Buffer
import Verif.Model.ReadyCache
import Verif.Proof.Wpx
import Verif.Proof.IMap
import Verif.Spec.CacheSpec
import Verif.Proof.Cache1
import Verif.Proof.Cache2
import Verif.Proof.Cache3
import Verif.Proof.Cache4
import Verif.Proof.Cache5
import Verif.Props.C26_ReadyCache
import Verif.Model.Balance
import Verif.Spec.BalanceSpec
import Verif.Proof.Balance1
import Verif.Proof.Balance2
import Verif.Props.C30_Balance
import Verif.Props.C33_Draws
import Verif.Model.Load
import Verif.Proof.Load1
import Verif.Props.C37_Load
import Verif.Model.CallAll
import Verif.Spec.CallAllSpec
import Verif.Proof.CallAll1
import Verif.Props.C48_CallAll
import Verif.Model.Mock
import Verif.Spec.MockSpec
import Verif.Proof.Mock1
import Verif.Proof.Mock2
import Verif.Props.C55_Mock
import Verif.Props.C59_Wake
import Verif.Model.RetryBudget
import Verif.Props.C60_RetryBudget
import Verif.Model.HedgeHisto
import Verif.Props.C61_HedgeLatency
import Verif.Model.BufferWake
import Verif.Spec.BufferWakeSpec
import Verif.Proof.BufferWake1
import Verif.Proof.BufferWake2
import Verif.Props.C62_BufferWake
import Verif.Model.ShedLimit
import Verif.Props.C63_ShedLimit
import Verif.Spec.UseSpec
import Verif.Props.C64_BufferUse
import Verif.Model.Fleet
import Verif.Props.C65_LimitLayers
import Verif.Model.Chain
import Verif.Props.C66_Chain
import Verif.Model.BalLoad
import Verif.Proof.BalLoad1
import Verif.Proof.BalLoad2
import Verif.Props.C67_BalanceLoad
import Verif.Props.C68_BackoffSession
import Verif.Model.RetryLimit
import Verif.Props.C69_RetryLimit
import Verif.Model.SpawnLimit
import Verif.Props.C70_SpawnLimit
import Verif.Model.LoadFloat
import Verif.Props.C71_Ieee
import Verif.Props.C71_EwmaFloat
import Verif.Model.Float
import Verif.Props.C72_RetryFloat
import Verif.Props.C48_Lives
import Verif.Model.LimWake
import Verif.Props.C73_LimitWake
import Verif.Model.BufferLim
import Verif.Props.C74_BufferLimit
import Verif.Model.CallAllLim
import Verif.Proof.LimTo
import Verif.Props.C75_CallAllLimit
import Verif.Model.HedgeLim
import Verif.Props.C76_HedgeLimit
import Verif.Model.CacheDrop
import Verif.Model.Named
import Verif.Proof.Linear
import Verif.Props.C77_Linear
import Verif.Model.BalLim
import Verif.Proof.Linear2
import Verif.Props.C78_BalanceLimit
import Verif.Model.EwmaThreads
import Verif.Props.C79_EwmaThreads
import Verif.Model.Over
import Verif.Proof.Over
import Verif.Props.C80_OverLimit
import Verif.Props.C81_Returns
import Verif.Spec.AnswersSpec
import Verif.Proof.Answers
import Verif.Proof.Answers2
import Verif.Props.C82_Answers
import Verif.Props.C83_Watch
import Verif.Spec.WatchSpec
import Verif.Proof.Loud
import Verif.Spec.SendsSpec
import Verif.Proof.Sends
import Verif.Proof.Sends2
import Verif.Props.C84_Sends
import Verif.Model.BufferSvc
import Verif.Props.C85_BufferStack
import Verif.Model.Spawn
import Verif.Props.C86_Spawn
import Verif.Spec.AlikeSpec
import Verif.Proof.Alike
import Verif.Proof.AlikeMw
import Verif.Proof.AlikeMake
import Verif.Proof.AlikeCall
import Verif.Proof.AlikeLoad
import Verif.Proof.AlikeBal
import Verif.Spec.StreamSpec
import Verif.Props.C87_Exchange
import Verif.Props.C88_Laws
import Verif.Spec.LiveSpec
import Verif.Proof.Live
import Verif.Proof.LiveMw
import Verif.Proof.LiveRetry
import Verif.Proof.LiveTask
import Verif.Proof.LiveRecon
import Verif.Props.C89_Live
import Verif.Spec.LiveAllSpec
import Verif.Proof.LiveAll1
import Verif.Proof.LiveAll2
import Verif.Proof.LiveAll3
import Verif.Props.C90_CallAllEnds
import Verif.Spec.LiveBalSpec
import Verif.Proof.LiveBal
import Verif.Proof.BalKeep
import Verif.Proof.LiveBal2
import Verif.Props.C91_BalanceLive
import Verif.Spec.BufferLiveSpec
import Verif.Proof.BufferLive1
import Verif.Proof.BufferLive2
import Verif.Props.C92_BufferAnswers
import Verif.Spec.BufferSlotSpec
import Verif.Proof.BufferSlot
import Verif.Props.C93_BufferSlots
import Verif.Spec.LimLiveSpec
import Verif.Props.C94_LimitLive
import Verif.Proof.LiveBal3
import Verif.Props.C95_BufferedBalance
import Verif.Props.C96_ShedRate
import Verif.Props.C97_ShedBuffer
import Verif.Props.C98_Unused
