import sys
sys.path.insert(0,'/tmp/gen'); from reg import reg
P=r'''
p("C91","The switches of an industry's tile choose the tile's sprite","An industry of the library has one tile type whose graphics are switches: over the industry's layout (in the related scope), over the tile's position in it, and the code that stores the number found in register 0. In every state of the game, at a tile of layout i and position (x, y) of the industry, these switches - as the texts of their code are parsed, with the variables of their scopes and the subroutine called by name - draw the sprite layout with the number of a sprite of the set in register 0, which is the strip of the building that stands there, or the empty sprite where none has a strip; nothing else in the storage changes. The same holds from the tile's map, for whatever callback the graphics are the handler.","every set of buildings and layouts, every tile, every state and variables of the game, every store of further objects","it composes the cutting of buildings, dictionaries keyed by position, parsing, named variables of two scopes and switches that call switches, over all states of the game; a test runs no game",["grf/lib/industry.py:Industry.get_sprites","grf/lib/industry.py:Building.get_sprites","grf/va2vars.py:VA2_VARS","grf/parser.py:parse_code","grf/actions.py:Switch"])
'''
M=r'''
c("C91","proved",["Chain.industry_tile_shows","Chain.tile_draws_its_sprite","Chain.industry_tile_means","Chain.tiles_ok","Chain.empty_layout_gives_position"],"on the level of what switches mean (from there to the bytes and the game is C88, whose other conditions tiles_ok shows; the id 0 the library gives get_sprite_num is not covered by C88, see explicit_id_handed_out, C28); buildings lie apart within 256 by 256 tiles (C60), the set has at most 32768 sprites, every layout has a sprite (otherwise empty_layout_gives_position); layouts are numbered as the code does, from 0 (counted_from_one, C60)")
'''
reg(P,M,
 rows=[['C91','`Model.IndustryObjs`, `Model.Industry`','the switches as objects of C88; the meaning of a switch over a field of either scope (`var_switch`), composed with `tile_sprite` (C60); the code texts are parsed by the model of the parser']],
 more=['| lib/industry.py, the switches of the tile as objects | IndustryObjs | C91 |'],
 dev=['* The switch of an industry layout without buildings has no ranges and gives the position of the tile instead of the empty sprite\'s number (`empty_layout_gives_position`).'],
 imports=['Verif.Model.IndustryObjs','Verif.Props.IndustryObjs'])
