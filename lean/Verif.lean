import Verif.Leb.Props
import Verif.Reader.Props
import Verif.Parser.Props
import Verif.Framing.Props
import Verif.Types.Props
import Verif.IndexMap.Props
import Verif.Snapshot.Props
import Verif.TypeList.Props
import Verif.TypeList.AcceptProps
import Verif.Topo.Props
import Verif.Shrink.Props
import Verif.Wave.Props
import Verif.Wat.Props
import Verif.Float.Props
import Verif.Meta.Props
import Verif.Abi.Props
import Verif.Smith.Props
import Verif.Smith.NoTrapProps
import Verif.Peephole.Props
import Verif.Instr.Props
import Verif.Op.LocalsProps
import Verif.Op.TryProps
import Verif.Op.InitProps
import Verif.Op.TypingProps
import Verif.Items.Props
import Verif.Reenc.Props
import Verif.Names.Props
import Verif.Remod.Props
import Verif.Remod.ModuleProps
import Verif.Valid.ConstProps
import Verif.Valid.Props
import Verif.Valid.CalmProps
import Verif.Valid.AllProps
import Verif.Gc.LiveProps
import Verif.Gc.Props
import Verif.Gc.StackProps
import Verif.Gc.ExecProps
import Verif.Op.ArityProps
import Verif.CompName.Props
import Verif.CompName.NameProps
import Verif.CompName.UniqueProps
import Verif.Custom.Props
import Verif.Custom.LinkProps
import Verif.Custom.DylinkProps
import Verif.Fold.Props
import Verif.Expand.Props
import Verif.Resolve.Props
import Verif.Resolve.NumProps
import Verif.Resolve.PanicProps
import Verif.Deinline.Props
import Verif.CompNames.Props
import Verif.Semver.Props
import Verif.Compose.Props
import Verif.Lookup.Props
import Verif.Linking.Props
import Verif.DlTable.Props
import Verif.LinkLayout.Props
import Verif.DlSym.Props
