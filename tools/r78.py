import sys
sys.path.insert(0,'/tmp/gen'); from reg import reg
P=r'''
p("C78","Real sprites are sorted into sounds and groups of graphics by the actions that announce them; sounds are extracted","While decompiling a file (container version 2) made of parts, each an action announcing sprite sets, replaced new or old graphics or sounds, followed by at most the announced number of entries, every real sprite is taken for a sound if its last mention stands in a part of sounds and for a graphic of that part's group otherwise; the names of groups (kind and number of earlier parts of the kind) are different for different parts. A sound can be written exactly if the name of its file has at most 255 bytes. What the decompiler saves for a sound is its data followed by one byte too many, the first of what follows in the file.","all lists of parts and entries, all names, data and following bytes","the order and number of actions and sprites is unbounded; the extra byte only shows for sounds followed by something other than an end of file",["grf/decompile.py:ParsingContext","grf/decompile.py:decode_pseudo_sprite","grf/decompile.py:read_pseudo_sprite","grf/decompile.py:read_real_sprite","grf/sprites.py:RAWSound"])
p("C79","A decompiled script makes the sprites of the file from the pictures the decompiler saves","For every file, the code the decompiler prints for graphics runs with the saved pictures exactly if every group it draws from has a sprite with a layer; it then adds, for each placeholder in order, all sprites with that number that have colours or no opacity layer, in their order in the file, with their sizes, offsets, zooms and pixels. A sprite comes out with the layers it had exactly if it has colours whenever a sprite of its group has a colour layer and a mask whenever one has a mask; otherwise it gets invisible colours or the mask 255. Several alternatives (zooms, depths) of one sprite become sprites of their own, so the number of sprites is kept exactly if no sprite has alternatives.","all lists of real sprites with all sizes, pixels, layers and numbers, all groups a file can have, all orders of placeholders, all outline colours of duplicates","the sheets, the variables and the groups interact over arbitrarily many sprites; tests compare single pictures",["grf/decompile.py:GraphicsSpriteGen.py","grf/decompile.py:save_graphics_resources","grf/decompile.py:decompile","grf/sprites.py:FileSprite","grf/sprites.py:WithMask"])
'''
M=r'''
c("C78","proved",["Extract.kinds","Extract.sound_kind","Extract.groups_differ","Extract.groupName_inj","Extract.sound_written_iff","Extract.sound_gains_byte","Extract.beyond_announced"],"the conditions on parts are written in the statement and shown necessary by beyond_announced; container version 2, not a base set; sound_gains_byte states the wrong size the decompiler uses")
c("C79","proved",["Extract.script_sprites","Extract.decompiled_sprites","Extract.groups_ok","Extract.unchanged_iff","Extract.uniform_group","Extract.alternatives_apart","Extract.mixed_out","Extract.no_layers"],"exact; the picture files are matrices (how Pillow saves and loads them is not modelled); the assertion on the sizes of duplicates is left out")
'''
reg(P,M,
 rows=[['C78','`Model.Extract`: `ParsingContext` and what the decoders of actions do to it, `RAWSound`, reading of sounds','induction over the parts with the context as state; the announcing actions from C64'],
       ['C79','`Model.Extract`: grouping, sheets (C47), `GraphicsSpriteGen.py`, and running the printed statements','dictionaries of lists as filters; uniqueness of paths and variable names; cells of the sheets (C47); invariant between the names given out and the variables assigned, over the list of placeholders']],
 more=['| decompile.py: ParsingContext, save_graphics_resources, GraphicsSpriteGen; sprites.py: RAWSound | Extract | C78, C79 |'],
 dev=['* Decompiled sounds have one byte too many (the zero after the name is not counted, decompile.py 1252); sounds of old containers are lost (`NameError`); recolour sprites of version 2 files are decoded as Action 0 (C78).',
      '* Decompiled graphics: a script for a sprite without layers uses `EMPTY_SPRITE`, which is not imported; an 8bpp sprite in a group with a 32bpp one becomes invisible in colour; alternatives are added as sprites of their own, which shifts everything after them; sprites with opacity but no colours are dropped (C79).',
      '* Watch: the list of files `write` returns is always empty (C51), so in the code as it is only the script is watched; C75 takes the list as arbitrary.'],
 imports=['Verif.Model.Extract','Verif.Props.Extract','Verif.Props.ExtractGraphics','Verif.Props.ExtractScript'])
g='/tmp/gen/manifest.py'; s=open(g).read()
s=s.replace('"Tree.moved_twice"]','"Tree.moved_twice","Tree.quantized_exact","Tree.empty_exact"]'); open(g,'w').write(s)
g='/verif/tools/design_head.md'; s=open(g).read()
i=s.index("vox.py (voxel rendering), colour.py"); j=s.index("## 5. Plan")
s=s[:i]+"""`VoxTrainFile` (vox.py), the floating point colour spaces of colour.py, comments and statistics of `decompile`, reading of old
containers (version 1), PIL image loading and saving, the socket of the admin connection, performance behaviour and console output.
Floating point numbers are nowhere modelled.

"""+s[j:]
open(g,'w').write(s)
