import Verif.Props.Csr
import Verif.Props.Coo
import Verif.Props.Other
import Verif.Props.CrCsr
import Verif.Props.Csbr
import Verif.Props.Cgbr
import Verif.Props.CgbrWide
import Verif.Props.CgbrRead
import Verif.Props.Cross
import Verif.Props.Counts
import Verif.Props.Broken
import Verif.Props.Schedule
import Verif.Props.ParSort
import Verif.Props.Bits
import Verif.Props.Permute
import Verif.Props.IoBin
import Verif.Props.IoBin2
import Verif.Props.IoBlocked
import Verif.Props.IoCgbr
import Verif.Props.IoMm
import Verif.Props.IoMm2
import Verif.Props.IoMm3
import Verif.Props.Tools
import Verif.Props.Tools2
import Verif.Props.Tools3
import Verif.Props.Heap
import Verif.Props.IoOpen
import Verif.Props.Drivers
import Verif.Props.Result
import Verif.Props.IoBcsr
import Verif.Props.Bcsr
import Verif.Cases.Bcsr
import Verif.Props.Pprint
import Verif.Props.BlockTest
import Verif.Props.Tools4
import Verif.Cases.Base
import Verif.Cases.Blocks
import Verif.Cases.Par
import Verif.Cases.Files
import Verif.Cases.Tools
import Verif.Props.Pipeline
import Verif.Cases.Pipeline
import Verif.Cases.Drivers
import Verif.Props.Total
import Verif.Cases.Total
import Verif.Props.Show
import Verif.Cases.Show
import Verif.Props.MmLib
import Verif.Cases.MmLib
import Verif.Props.DriversTotal
import Verif.Cases.DriversTotal
import Verif.Props.CsbrCoo2
import Verif.Cases.CsbrCoo2
import Verif.Props.ScheduleWide
import Verif.Props.Order
import Verif.Cases.Order
import Verif.Props.WorkersFloat
import Verif.Cases.Workers
import Verif.Props.Outside
import Verif.Props.Outside2
import Verif.Cases.Outside
import Verif.Props.Csbr3Chunk
import Verif.Cases.Csbr3Chunk
import Verif.Props.Concurrent
import Verif.Cases.Concurrent
import Verif.Props.AnyPartition
import Verif.Cases.AnyPartition
import Verif.Props.Rates
import Verif.Cases.Rates
import Verif.Props.MortonInt
import Verif.Cases.MortonInt
import Verif.Props.LateStart
import Verif.Props.LateSchedule
import Verif.Cases.LateStart
import Verif.Cases.LateSchedule
import Verif.Props.SameCsr
import Verif.Cases.SameCsr
import Verif.Props.ChoiceRounded
import Verif.Cases.ChoiceRounded
