import Verif.Props.Common
import Verif.Props.Compile
import Verif.Props.Registers
import Verif.Props.Accepts
import Verif.Props.Operators
import Verif.Props.Decode
import Verif.Props.Switch
import Verif.Props.SwitchExact
import Verif.Props.Refs
import Verif.Props.Container
import Verif.Props.Write
import Verif.Props.IdMap
import Verif.Props.IdMapExact
import Verif.Props.Sounds
import Verif.Props.Cache
import Verif.Props.CacheExact
import Verif.Props.Tables
import Verif.Props.Strings
import Verif.Props.StringsExact
import Verif.Props.SpriteRef
import Verif.Props.PropCodec
import Verif.Props.PropExact
import Verif.Props.Define
import Verif.Props.Actions
import Verif.Props.Actions2
import Verif.Props.Layouts
import Verif.Props.LayoutsExact
import Verif.Props.Props14
import Verif.Props.Dispatch
import Verif.Props.Roundtrip
import Verif.Props.Exact
import Verif.Props.Misc
import Verif.Props.Purchase
import Verif.Props.Train
import Verif.Props.TrainExact
import Verif.Props.SoundsExact
import Verif.Props.FilesExact
import Verif.Props.WriteExact
import Verif.Props.TablesExact
import Verif.Props.TextExact
import Verif.Props.Callbacks
import Verif.Props.CallbacksExact
import Verif.Props.CallbackNumbers
import Verif.Props.SpriteData
import Verif.Props.SpriteExact
import Verif.Props.RealSprite
import Verif.Props.Remap
import Verif.Props.Sheet
import Verif.Props.ResNames
import Verif.Props.Packets
import Verif.Props.TextEsc
import Verif.Props.Syntax
import Verif.Props.SyntaxExact
import Verif.Props.Retext
import Verif.Props.RetextExact
import Verif.Proofs.Refs4
import Verif.Props.RefsExact
import Verif.Props.RefsOrder
import Verif.Props.RefsIds
import Verif.Spec.LinkSem
import Verif.Proofs.LinkSim
import Verif.Props.Link
import Verif.Props.Comparison
import Verif.Props.SwitchLink
import Verif.Props.Industry
import Verif.Props.IndustryLayout
import Verif.Props.ContainerLayout
import Verif.Props.ResNamesExact
import Verif.Props.HexExact
import Verif.Spec.ActionFormat
import Verif.Props.ActionFormat
import Verif.Props.PurchaseExact
import Verif.Props.LettersExact
import Verif.Props.RefsSucceed
import Verif.Model.Script
import Verif.Props.Script
import Verif.Spec.ReadFormat
import Verif.Props.ReadFormat
import Verif.Props.ReadFormat2
import Verif.Props.ReadFormat3
import Verif.Props.ReadFormat4
import Verif.Spec.PropForm
import Verif.Props.PropForm
import Verif.Props.PropForm2
import Verif.Model.Py
import Verif.Props.Py
import Verif.Props.PyKinds
import Verif.Props.PySwitch
import Verif.Props.PyExact
import Verif.Props.Tighten
import Verif.Model.VarTables
import Verif.Props.VarTables
import Verif.Props.VarNames
import Verif.Spec.SpriteSets
import Verif.Props.SpriteSets
import Verif.Model.VehicleSprites
import Verif.Props.VehicleSprites
import Verif.Props.PartCode
import Verif.Props.LibCodes
import Verif.Spec.VehicleNumbers
import Verif.Model.VehicleNumbers
import Verif.Props.VehicleNumbers
import Verif.Spec.InfoSpec
import Verif.Model.Info
import Verif.Props.Info
import Verif.Model.SpriteTree
import Verif.Props.SpriteTree
import Verif.Props.SpritePixels
import Verif.Model.Vox
import Verif.Spec.VoxSpec
import Verif.Props.Vox
import Verif.Model.Watch
import Verif.Props.Watch
import Verif.Model.Palette
import Verif.Props.Palette
import Verif.Model.Extract
import Verif.Props.Extract
import Verif.Props.ExtractGraphics
import Verif.Props.ExtractScript
import Verif.Model.Globals
import Verif.Props.Globals
import Verif.Model.Restore
import Verif.Props.Restore
import Verif.Model.Gif
import Verif.Spec.Animation
import Verif.Props.Gif
import Verif.Model.SpriteSheet
import Verif.Props.SpriteSheet
import Verif.Model.Alternatives
import Verif.Props.Alternatives
import Verif.Model.VehicleCallbacks
import Verif.Props.VehicleCallbacks
import Verif.Props.RefsAgain
import Verif.Props.WriteAgain
import Verif.Model.Report
import Verif.Props.Report
import Verif.Spec.GameChain
import Verif.Model.Chain
import Verif.Spec.ChainSem
import Verif.Props.Chain
import Verif.Model.CallbackObjs
import Verif.Props.CallbackObjs
import Verif.Proofs.Refs5
import Verif.Props.RefsOwn
import Verif.Props.PurchaseShown
import Verif.Model.IndustryObjs
import Verif.Props.IndustryObjs
import Verif.Model.LiveryObjs
import Verif.Props.LiveryMeans
import Verif.Props.VehicleInGame
