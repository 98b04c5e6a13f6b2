import sys
sys.path.insert(0,'/tmp/gen'); from reg import reg
P=r'''
p("C80","Global settings of a file have the effect they name","SetGlobalTrainDepotYOffset, SetGlobalTrainMiscFlag and EngineOverride can be written exactly if the offset is a number of 32 bits without sign, the flag one of 32 and the ids four bytes or a number of 32 bits. After the game reads what is written for a list of settings, in order, the depot offset is the last one given (as a signed number), a flag is set exactly if it was set before or is in the list, and each file's vehicles are replaced by those of the last override given for it (the own file if no source is given); nothing else changes. A negative depot offset, the usual kind, is refused, although 2^32 plus that offset would have its effect.","all lists of settings, all ids, all previous states of the game","settings accumulate over arbitrarily many actions; tests compare single byte strings",["grf/lib/train.py:SetGlobalTrainDepotYOffset","grf/lib/train.py:SetGlobalTrainMiscFlag","grf/lib/vehicle.py:EngineOverride","grf/actions.py:ComputeParameters"])
p("C81","Colours and opacity of a sprite are joined pixel by pixel, also when the original picture is looked up in memory","When a sprite with colours and opacity is written, each pixel gets its colour and its opacity, row by row, if the layers are of different arrays, or are the colours and opacity of any rectangular part (also all) of one RGBA picture. The boundary: layers that are another arrangement of all pixels of one picture (mirrored, turned) are written as that picture is, and parts of an array that was reshaped from another number of dimensions fail.","all sizes, positions, addresses and contents of memory, all steps of the layers","the shortcut depends on addresses and strides, whose combinations tests cannot exhaust",["grf/sprites.py:restore_rgba_image","grf/sprites.py:Sprite.get_real_data"])
'''
M=r'''
c("C80","proved",["Acts.written_iff","Acts.setting_read","Acts.settings_work","Acts.negative_offset"],"exact; the specification of the game reads only the actions written here")
c("C81","proved",["Restore.separate_exact","Restore.part_exact","Restore.arrangement_lost","Restore.mirrored_wrong","Restore.reshaped_fails","Restore.buffer_fails"],"views of numpy are address, strides and shape; both layers hold bytes; the boundary is written in the statement and shown necessary by mirrored_wrong and buffer_fails")
'''
reg(P,M,
 rows=[['C80','`Model.Globals`: the three classes, on top of Action D (C62) and the property codec (C10)','exact bytes of each setting, then induction over the list of settings with the state of a small game'],
       ['C81','`Model.Restore`: numpy views, `restore_rgba_image`, slices, `reshape` and `concatenate`','strides: division of the offset of a part gives back row and column; pixel grids as lists']],
 more=['| lib/train.py, lib/vehicle.py: global settings | Globals | C80 |','| sprites.py: restore_rgba_image | Restore | C81 |'],
 dev=['* Negative depot offsets raise `struct.error` (C80). The game keeps flag 3 of the misc flags per file, which the specification does not distinguish.',
      '* `restore_rgba_image` ignores the steps of the layers when the picture has their size, so `picture[:, ::-1]` is written unmirrored; it raises `ValueError` for parts of reshaped buffers (C81). C44 and C54 take the layers as values.'],
 imports=['Verif.Model.Globals','Verif.Props.Globals','Verif.Model.Restore','Verif.Props.Restore'])
