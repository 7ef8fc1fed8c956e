import Verif.Newline.Props
import Verif.Base64.Props
import Verif.FlatMap.Props
import Verif.RangeMap.Props
import Verif.LiteralHashMap.Props
import Verif.Timestamp.Props
import Verif.Integer.Props
import Verif.Buffer.Props
import Verif.IntText.Props
import Verif.Vector.Props
import Verif.Deque.Props
import Verif.Unicode.Props
import Verif.HexDump.Props
import Verif.FrozenSets.Props
import Verif.Fnv.Props
import Verif.PixelBox.Props
import Verif.UnitFrac.Props
import Verif.Endianness.Props
import Verif.RandomSeed.Props
import Verif.MulPrec.Props
import Verif.MulPrec.ConvertProps
import Verif.StringMatcher.Props
import Verif.StringSplit.Props
import Verif.WildcardFilter.Props
import Verif.Quote.Props
import Verif.KdTree.Props
import Verif.RectPacker.Props
import Verif.WordWrap.Props
import Verif.RandInt.Props
import Verif.SeedSeq.Props
import Verif.BitMedium.Props
import Verif.SubwordPixel.Props
import Verif.IndexedPixel.Props
import Verif.BitField.Props
import Verif.PackedPixel.Props
import Verif.IntegerPixel.Props
import Verif.CliPattern.Props
import Verif.CliPattern.DescProps
import Verif.CliPattern.ArgsProps
import Verif.CliSpec.Props
import Verif.CliSpec.ParserProps
import Verif.CliSpec.OptProps
import Verif.CliSpec.ConstructProps
import Verif.CliProc.ProcessProps
import Verif.CliProc.CommandProps
import Verif.ImageIter.Props
import Verif.ImageReader.Props
import Verif.ColorSlot.Props
import Verif.Palette.Props
import Verif.ImageWriter.Props
import Verif.PixelConvert.Props
import Verif.ReverseLookup.Props
import Verif.BufferFormat.Props
import Verif.StringTemplate.Props
import Verif.MemStream.Props
import Verif.SuperInt.Props
import Verif.StableSort.Props
import Verif.CssColor.Props
import Verif.ColorSpace.Props
import Verif.FloatInt.Props
import Verif.LuInverse.Props
import Verif.KeyBindings.Props
import Verif.Rotation.Props
import Verif.Trackball.Props
import Verif.PerspectProj.Props
import Verif.Perlin.Props
import Verif.Histogram.Props
import Verif.Edid.Props
import Verif.AsList.Props
import Verif.Log.Props
import Verif.TextFile.Props
import Verif.Streams.Props
import Verif.ImageFormat.Props
import Verif.TestRunner.Props
import Verif.XmlReport.Props
import Verif.VisualSelect.Props
import Verif.Colormap.Props
import Verif.PaletteMap.Props
import Verif.PixelBlock.Props
import Verif.TextCodec.Props
import Verif.PixelSize.Props
import Verif.AsInt.Props
import Verif.TestPath.Props
import Verif.TextParser.Props
import Verif.Terminal.Props
import Verif.Enum.Props
import Verif.FallbackFont.Props
import Verif.FormatAs.Props
import Verif.Timer.Props
import Verif.Format.Props
import Verif.CodePoint.Props
import Verif.StrideIter.Props
import Verif.InexactCompare.Props
import Verif.Audit
