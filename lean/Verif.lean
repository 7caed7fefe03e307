import Verif.Model.Decode
import Verif.Props.Bits
import Verif.Props.Huffman
import Verif.Props.Block
import Verif.Props.Mcu
import Verif.Props.Scan
import Verif.Props.Geometry
import Verif.Props.Idct
import Verif.Props.IdctReal
import Verif.Props.IdctReduced
import Verif.Props.Color
import Verif.Props.Planes
import Verif.Props.Upsample
import Verif.Props.Parser
import Verif.Props.Whole
import Verif.Props.Panics
import Verif.Props.Images
import Verif.Props.EndToEnd
import Verif.Model.Stream
import Verif.Props.Stream
import Verif.Props.StreamSafe
import Verif.Props.Builds
import Verif.Props.Layout
import Verif.Props.Colors
import Verif.Props.SamePicture
import Verif.Props.Abbreviated
import Verif.Props.Exact
import Verif.Props.ExactCmyk
import Verif.Props.RoundTrip
import Verif.Props.AnyPicture
import Verif.Props.Truncated
import Verif.Props.Damaged
import Verif.Props.Outcome
import Verif.Props.OutcomeKind
import Verif.Props.Wellformed
import Verif.Props.StreamBuilds
import Verif.Props.Read
import Verif.Props.ReadMany
import Verif.Props.ReadExact
import Verif.Props.FramedExact
import Verif.Props.Reading
import Verif.Props.StreamPending
import Verif.Props.StreamExact
import Verif.Props.Band
import Verif.Props.ZeroTail
import Verif.Props.Size
import Verif.Props.Float
import Verif.Props.Behind
import Verif.Props.BitStream
import Verif.Props.LeftOver
import Verif.Model.Framed
import Verif.Props.Framed
import Verif.Props.Start
import Verif.Props.AnyPieces
import Verif.Spec.RepoImages
import Verif.Props.RepoTests
import Verif.Spec.Uniform
import Verif.Props.Uniform
import Verif.Spec.Brighter
import Verif.Props.Brighter
import Verif.Spec.Local
import Verif.Props.Coded
import Verif.Props.Local
import Verif.Spec.Flip
import Verif.Props.Flip
import Verif.Props.FlipTall
import Verif.Props.MirrorWide
import Verif.Props.Lightened
import Verif.Props.Crop
import Verif.Props.Stable
import Verif.Props.Colourless
import Verif.Props.Errors
import Verif.Props.ErrorsStream
import Verif.Props.Final
import Verif.Props.Channels
import Verif.Props.Ramps
import Verif.Props.Columns
import Verif.Props.Added
import Verif.Props.Joined
import Verif.Props.Mean
import Verif.Spec.Limited
import Verif.Props.Limited
import Verif.Spec.Requantised
import Verif.Props.Requantised
import Verif.Spec.Transpose
import Verif.Props.Transpose
import Verif.Props.Torn
import Verif.Props.Blocks
import Verif.Props.Contrast
import Verif.Props.GreySampling
import Verif.Props.Energy
import Verif.Props.Ratios
import Verif.Props.Saturation
import Verif.Props.Inks
import Verif.Props.Recovered
import Verif.Props.MeanSquare
import Verif.Props.Blend
