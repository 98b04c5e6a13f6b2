import sys
sys.path.insert(0,'/tmp/gen'); from reg import reg
P=r'''
p("C83","Sprites put on a sheet can be cut out of it again","SpriteSheet.make_image works exactly if there is at least one column. For every list of sprites and every padding, each sprite is inside the picture with the padding around it, any two are at least the padding apart, the later one to the right in the same row or below; every point of a sprite's rectangle shows its picture, every other point the colour 255. Each sprite object keeps the place of its last occurrence, and cutting this rectangle out of the sheet gives its picture.","all lists of sprites (also repeated ones), sizes, paddings, numbers of columns, pictures","row heights and widths depend on all sprites of a row; overlaps only show for particular combinations of sizes",["grf/grf.py:SpriteSheet.make_image"])
p("C84","Alternatives of a sprite are told apart by zoom and depth","AlternativeSprites accepts a list exactly if no two sprites have the same zoom and depth. get_sprite returns the first alternative meeting what was asked for, and nothing exactly if none meets it; so each alternative whose depth was given is found by its zoom and depth. One whose depth was left open is never found by a depth.","all lists of sprites, all questions","any two of arbitrarily many alternatives can collide; a question may leave out zoom, depth or both",["grf/sprites.py:AlternativeSprites"])
'''
M=r'''
c("C83","proved",["SpriteSheet.sheet_exact","SpriteSheet.layout","SpriteSheet.cut_out"],"padding and columns are natural numbers; drawing puts a sprite's picture into its rectangle (subclasses define draw); saving the picture is not modelled")
c("C84","proved",["Alternatives.accepted_iff","Alternatives.get_first","Alternatives.get_none","Alternatives.each_found","Alternatives.open_depth_hidden"],"exact")
'''
reg(P,M,
 rows=[['C83','`Model.SpriteSheet`: both loops of `make_image`, with the objects\' places as state','closed forms for rows and columns by induction over the loops, prefix sums; drawing order: later sprites are apart'],
       ['C84','`Model.Alternatives`: the constructor and `get_sprite`','counting different pairs; the first index with a property']],
 more=['| grf.py: SpriteSheet | SpriteSheet | C83 |','| sprites.py: AlternativeSprites | Alternatives | C84 |'],
 dev=['* `VoxTrainFile.make_sprites` fails with its default colour functions (`darken`, `brighten` do not exist), so it is not modelled.'],
 imports=['Verif.Model.SpriteSheet','Verif.Props.SpriteSheet','Verif.Model.Alternatives','Verif.Props.Alternatives'])
