import json
L=[]
def m(prop,file,d,old,new,claim,**k):
    L.append(dict(id='m16-%02d'%(len(L)+1),prop=prop,file='Verif/'+file,**{'def':d},old=old,new=new,claim=claim,**k))
F='Grouping/FloatOptSignif.lean'
D='groupOptsigLimaF'
m('C159',F,D,'bint.length = on.length ∧ on.length = off.length','bint.length = on.length','background of another length accepted')
m('C159',F,D,'reaches sig (limaF rnd lg (intervalSum (prefixSum on) a b)','reaches 1 (limaF rnd lg (intervalSum (prefixSum on) a b)','threshold of one in the loop')
m('C159',F,D,'(intervalSum (prefixSum on) a b) (intervalSum (prefixSum off) a b)','(intervalSum (prefixSum off) a b) (intervalSum (prefixSum on) a b)','source and background swapped')
m('C159',F,D,'(intervalSum (prefixSum off) a b) (ratio a b)','(intervalSum (prefixSum off) a b) (ratio 0 b)','ratio of the wrong channels')
m('C159',F,D,'(intervalSum (prefixSum off) a b) (ratio a b)','(intervalSum (prefixSum off) 0 b) (ratio a b)','background summed from the first channel')
m('C159',F,D,'(edges idx on.length).map fun e => ratio e.1 e.2','(edges idx on.length).map fun e => ratio e.2 e.1','ratio of a reversed interval in the success test')
m('C159',F,D,'fun p => reaches sig (limaF rnd lg p.1 p.2.1 p.2.2)','fun p => !(reaches sig (limaF rnd lg p.1 p.2.1 p.2.2))','success negated')
m('C159',F,D,'(List.zip (Elisa.reduceat on idx) (List.zip (Elisa.reduceat off idx)','(List.zip (Elisa.reduceat on idx) (List.zip (Elisa.reduceat on idx)','source for background in the success test')
D='groupOptsigGvF'
m('C159',F,D,'n.length = b.length ∧ b.length = s.length','n.length = b.length','errors of another length accepted')
m('C159',F,D,'(rnd (Real.sqrt (intervalSum (prefixSum (s.map fun x => x * x)) i j))) (ratio i j)','(rnd (intervalSum (prefixSum (s.map fun x => x * x)) i j)) (ratio i j)','variance for the error')
m('C159',F,D,'(rnd (Real.sqrt (intervalSum (prefixSum (s.map fun x => x * x)) i j))) (ratio i j)','(rnd (intervalSum (prefixSum s) i j)) (ratio i j)','errors added linearly')
m('C159',F,D,'(intervalSum (prefixSum b) i j)\n','(intervalSum (prefixSum n) i j)\n','source for background')
m('C159',F,D,'(rnd (Real.sqrt p.2.2.1)) p.2.2.2','(rnd p.2.2.1) p.2.2.2','variance for the error in the success test')
m('C159',F,D,'fun p => reachesE sig','fun p => reachesE 0','success tested against zero')
json.dump(L,open('/tmp/mut/m16.json','w'))
bad=[(x['id'],x['old'],open('/verif/lean/'+x['file']).read().count(x['old'])) for x in L]
print(len(L),[b for b in bad if b[2]!=1])
