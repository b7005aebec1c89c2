import Verif.Base
import Verif.Proofs.Base
import Verif.Proofs.PumpJpeg
import Verif.Proofs.JpegBitWriter
import Verif.Model.HuffBuilder
import Verif.Proofs.HuffGen
import Verif.Proofs.HuffBits
import Verif.Proofs.HuffCanon
import Verif.Props.Huffman
import Verif.Props.JpegBits
import Verif.Model.LjpegEnc
import Verif.Model.LjpegDec
import Verif.Props.HuffDecode
import Verif.Proofs.LjpegCode
import Verif.Proofs.LjpegScan
import Verif.Proofs.LjpegHeader
import Verif.Proofs.LjpegRound
import Verif.Props.Ljpeg
import Verif.Model.Slice
import Verif.Model.PixArray
import Verif.Model.Tiles
import Verif.Spec.Image
import Verif.Proofs.Grid
import Verif.Proofs.Tiles
import Verif.Proofs.TileWin
import Verif.Proofs.PixArray
import Verif.Props.Tiles
import Verif.Props.PixArray
import Verif.Model.Orientation
import Verif.Spec.Orientation
import Verif.Props.PixOps
import Verif.Props.Orientation
import Verif.Proofs.DecodeTiles
import Verif.Props.DngTiles
import Verif.Proofs.Pumps32
import Verif.Props.Pumps
import Verif.Props.PumpsMore
import Verif.Model.Endian
import Verif.Model.Packed
import Verif.Proofs.Packed
import Verif.Proofs.PackedGeneric
import Verif.Props.Packed
import Verif.Props.PackedRows
import Verif.Model.Strips
import Verif.Props.Srw
import Verif.Props.Fuji
import Verif.Props.Crw
import Verif.Props.Ciff
import Verif.Props.Iiq
import Verif.Props.Kodak
import Verif.Props.Strips
import Verif.Model.Float
import Verif.Model.PackedFloat
import Verif.Model.Linearize
import Verif.Spec.Float
import Verif.Spec.Curve
import Verif.Props.Float
import Verif.Props.PackedFloat
import Verif.Props.Linearize
import Verif.Props.Tiff
import Verif.Props.TiffRead
import Verif.Props.Dng
import Verif.Props.DngLevels
import Verif.Props.BitArray
import Verif.Props.Decrypt
import Verif.Props.Original
import Verif.Props.Crx
import Verif.Props.CrxImage
import Verif.Props.CrxRange
import Verif.Props.CliPlan
import Verif.Props.CliJobs
import Verif.Props.Ftp
import Verif.Props.FtpTruth
import Verif.Props.TiffFile
import Verif.Props.CliNames
import Verif.Props.CrxWavelet
import Verif.Props.CrxQuant
import Verif.Props.Arw
import Verif.Props.Pef
import Verif.Props.Nef
import Verif.Props.Jpeg
import Verif.Props.JpegSub
import Verif.Props.Cr2
import Verif.Props.JpegExists
import Verif.Props.ArwLjpeg
import Verif.Props.Leaf
import Verif.Props.Orf
import Verif.Props.Pana
import Verif.Props.Bmff
import Verif.Props.BmffSample
import Verif.Props.Exif
import Verif.Props.Jfif
import Verif.Props.Mrw
import Verif.Props.Pana8
import Verif.Props.Lens
import Verif.Props.Loader
import Verif.Props.MakeDng
import Verif.Props.FtpConv
import Verif.Props.Demosaic
import Verif.Props.Demosaic4
import Verif.Props.DevelopTiff
import Verif.Props.Qtk
import Verif.Props.Kdc
import Verif.Props.IiqCorr
import Verif.Props.Small
import Verif.Props.Mos
import Verif.Props.IiqPoly
import Verif.Props.IiqFlat
import Verif.Props.IiqTab
import Verif.Props.IiqRaw
import Verif.Props.X3f
import Verif.Props.Raf
import Verif.Props.RafDbp
import Verif.Props.RafBlack
import Verif.Props.RawSource
import Verif.Props.Develop
import Verif.Props.FujiRotate
import Verif.Props.Color
