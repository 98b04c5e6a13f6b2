import sys
sys.path.insert(0,'/tmp/gen'); from reg import reg
P=r'''
p("C82","The animated picture of a sprite shows what the game shows","Sprite.save_gif makes a picture exactly if the sprite has only a mask, no pixel of the radio tower's colours (0xEF, 0xF0) and at least one pixel of the colours 0xE8 to 0xFE. A viewer repeating its frames forever then shows, at every tick and every pixel, the colour the game shows at that tick (transparent for value 0), except that the colours of fizzy drinks (0xE3 to 0xE7) stand still.","all masks, all ticks, all orders in which a set lists its members","the picture repeats after the longest of cycles of different lengths while time is unbounded; frames after the first only draw changes",["grf/sprites.py:Sprite.save_gif"])
'''
M=r'''
c("C82","proved",["Gif.saved_iff","Gif.shown","Gif.fizzy_wrong"],"exact; how Pillow stores frames is not modelled, Spec/Animation.lean says what a viewer does with them and what the game shows; the exception for fizzy drinks is written in the statement and shown to differ from the game by fizzy_wrong")
'''
reg(P,M,
 rows=[['C82','`Model.Gif`: `init_cycle`, the palette and remapping of each frame; `Spec.Animation`: palette animation of the game and a viewer of animated pictures','invariant over the ranges set up (their entries of the palette stay), induction over time; cycle lengths are powers of two, so they divide the longest; periodicity by arithmetic']],
 more=['| sprites.py: save_gif | Gif | C82 |'],
 dev=['* `save_gif` raises `ValueError` for sprites with radio tower colours (a pair is unpacked as a triple) and for sprites without animated colours; fizzy drinks are never animated (the slice `has_colors[-5:0]` is empty) (C82).'],
 imports=['Verif.Model.Gif','Verif.Spec.Animation','Verif.Props.Gif'])
