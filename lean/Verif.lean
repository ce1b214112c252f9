import Verif.IntervalMap.Props
import Verif.AddressMapper.Props
import Verif.AddressMapper.Hidden
import Verif.Parser.Hidden
import Verif.Parser.Alone
import Verif.Util.Props
import Verif.Buffer.Props
import Verif.Text.Props
import Verif.Text.Seconds
import Verif.Text.Rounding
import Verif.Text.SecondsSpec
import Verif.Text.SecondsProps
import Verif.Text.Stat
import Verif.Text.StatSpec
import Verif.Text.StatProps
import Verif.Builder.Props
import Verif.Spe.Props
import Verif.Event.Props
import Verif.Sample.Props
import Verif.HugePages.Props
import Verif.Normalizer.Props
import Verif.Normalizer.Stats
import Verif.Normalizer.StatsSpec
import Verif.Normalizer.StatsProps
import Verif.Converter.Props6
import Verif.Parser.Props3
import Verif.Command.Props
import Verif.Names.Props
import Verif.Attr.Props2
import Verif.Meta.Props5
import Verif.Serial.Props2
import Verif.Data.Props
import Verif.File.Props4
import Verif.Whole.Props2
import Verif.Whole.Props3
import Verif.Whole.Props4
import Verif.Whole.Pieces
import Verif.Whole.PiecesEx
import Verif.Whole.Gaps
import Verif.Whole.GapsEx
import Verif.Whole.Titles
import Verif.Whole.ExactSpec
import Verif.Whole.Exact
import Verif.Whole.ExactEx
import Verif.Whole.Sized
import Verif.Whole.Tidy
import Verif.Whole.Accept
import Verif.Whole.Finish
import Verif.Whole.Props5
import Verif.Whole.Identify
import Verif.Whole.Thin
import Verif.Whole.LabelSpec
import Verif.Whole.Labels
import Verif.Whole.Number
import Verif.Tool.Wire
import Verif.Tool.WireProps
import Verif.Tool.Start
import Verif.Tool.Model
import Verif.Tool.Args
import Verif.Tool.Props
import Verif.Whole.Kind
import Verif.Tool.ConvertModel
import Verif.Tool.Messages
import Verif.Tool.MessageEx
import Verif.Whole.TallySpec
import Verif.Whole.Tally
import Verif.Whole.TraceSpec
import Verif.Whole.Traces
import Verif.Whole.TraceLabels
import Verif.Whole.Picture
import Verif.Tool.Counted
import Verif.Tool.CountedAny
import Verif.Tool.ConvArgs
import Verif.Tool.Convert
import Verif.Disk.Props
import Verif.Run.Props
import Verif.Run.Signal
import Verif.Run.Quipper
import Verif.Run.Temp
import Verif.Missing.Identity
