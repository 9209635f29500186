import json
L=[]
def m(prop,file,d,old,new,claim,**k):
    L.append(dict(id='m18-%02d'%(len(L)+1),prop=prop,file='Verif/'+file,**{'def':d},old=old,new=new,claim=claim,inDef=True,**k))
F='Grouping/FloatSignif.lean'
D='Impl.limaAt'
m('C162',F,D,'(F.intervalSum (F.prefixSum on) start stop) (F.intervalSum (F.prefixSum off) start stop)','(F.intervalSum (F.prefixSum off) start stop) (F.intervalSum (F.prefixSum on) start stop)','source and background swapped')
m('C162',F,D,'(F.intervalSum (F.prefixSum off) start stop) (F.ratio','(F.intervalSum (F.prefixSum off) 0 stop) (F.ratio','background of all channels before')
m('C162',F,D,'(F.ratio d start stop)','(F.ratio d 0 stop)','ratio of all channels before')
m('C162',F,D,'(F.prefixSum on) start stop','(F.prefixSum on) start (stop - 1)','last channel left out')
D='Impl.limaSuccess'
m('C162',F,D,'F.ratio d e.1 e.2','F.ratio d 0 on.length','one ratio for all groups in the final test')
m('C162',F,D,'.all\n    fun p => reaches sig','.any\n    fun p => reaches sig','success if any group reaches the threshold')
m('C162',F,D,'(F.reduceat on idx) (List.zip (F.reduceat off idx)','(F.reduceat on idx) (List.zip (F.reduceat on idx)','source counts used as background in the final test')
D='Impl.groupSigLima'
m('C162',F,D,'(F.limaAt lg on off d) sig on.length 0 0 [0]','(F.limaAt lg on off d) sig on.length 0 0 [0, 0]','first start listed twice')
m('C162',F,D,'.ok (setFlags on.length idx, F.limaSuccess lg on off d sig idx)','.ok (setFlags on.length idx, true)','success always reported')
m('C162',F,D,'if on.length ≠ off.length then .error .assertionError\n  else if','if','unequal lengths accepted')
m('C162',F,D,'else if sig ≤ 0','else if sig < 0','threshold of zero accepted')
D='Impl.groupOptsigLima'
m('C162',F,D,'(bint.length - j) i j','(bint.length - j) j i','start and width swapped')
m('C162',F,D,'fun a b => reaches sig (F.limaAt lg on off d a b)','fun a b => !falls sig (F.limaAt lg on off d a b)','undefined significance accepted')
m('C162',F,D,'fun a b => reaches sig (F.limaAt lg on off d a b)','fun _ _ => true','threshold ignored')
m('C162',F,D,'F.limaSuccess lg on off d sig idx','F.limaSuccess lg off on d sig idx','final test with source and background swapped')
D='Impl.gvAt'
m('C162',F,D,'(F.gvSums n b s start stop).2.1 (F.gvSums n b s start stop).2.2','(F.gvSums n b s start stop).2.2 (F.gvSums n b s start stop).2.1','background and error swapped')
m('C162',F,D,'(F.ratio d start stop)','(F.ratio d start n.length)','ratio up to the last channel')
m('C162',F,D,'(F.gvSums n b s start stop).1','(F.gvSums n b s 0 stop).1','counts of all channels before')
D='Impl.gvSuccess'
m('C162',F,D,'(F.rnd (Real.sqrt p.2.2.1))','p.2.2.1','variance used as the error in the final test')
m('C162',F,D,'s.map fun x => F.rnd (x * x)','s','errors added linearly in the final test')
m('C162',F,D,'F.ratio d e.1 e.2','F.ratio d e.2 e.1','ends of the group swapped in the ratio')
m('C162',F,D,'.all\n','.any\n','success if any group reaches the threshold')
D='Impl.groupSigGv'
m('C162',F,D,'n.length = b.length ∧ b.length = s.length','n.length = b.length','number of errors not tested')
m('C162',F,D,'sig n.length 0 0 [0]','sig (n.length - 1) 0 0 [0]','last channel not visited')
m('C162',F,D,'else if n = [] then .error .indexError','','empty spectrum accepted')
m('C162',F,D,'F.gvSuccess lg n b s d sig idx','!F.gvSuccess lg n b s d sig idx','success inverted')
D='Impl.groupOptsigGv'
m('C162',F,D,'reachesE sig (F.gvAt lg n b s d i j)','reachesE (sig / 2) (F.gvAt lg n b s d i j)','half the threshold')
m('C162',F,D,'reachesE sig (F.gvAt lg n b s d i j)','!fallsE sig (F.gvAt lg n b s d i j)','undefined significance accepted')
m('C162',F,D,'setFlags bint.length idx, F.gvSuccess lg n b s d sig idx','setFlags bint.length idx.reverse, F.gvSuccess lg n b s d sig idx','starts written in reverse (same flags)')
F='Grouping/FloatPrefix.lean'
m('C157',F,'Impl.scaleOf','F.rnd (counts / weightedInv)','F.rnd (weightedInv / counts)','mean inverted (m14-33 again)')
m('C157',F,'Impl.gvSums','(F.intervalSum (F.prefixSum n) start stop, F','(F.intervalSum (F.prefixSum n) 0 stop, F','counts of all channels before (m14-40 again)')
m('C157',F,'Impl.gvSums','F.intervalSum (F.prefixSum b) start stop','F.intervalSum (F.prefixSum b) 0 stop','background of all channels before')
m('C157',F,'Impl.gvSums','s.map fun x => F.rnd (x * x)','s','errors added linearly')
m('C157',F,'Impl.ratio','/ F.scaleOf d.backArea start stop','* F.scaleOf d.backArea start stop','area scale of the background multiplied')
m('C157',F,'Impl.ratio','* F.scaleOf d.specBack start stop','* F.scaleOf d.backBack start stop','background scale of the background used for the source')
json.dump(L,open('/tmp/mut/m18.json','w'))
import re
bad=[]
for x in L:
    src=open('/verif/lean/'+x['file']).read()
    a=re.search(r'def '+re.escape(x['def'])+r'\b',src).start(); e=re.search(r'\n(/--|end )',src[a:]); t=src[a:a+e.start()]
    if t.count(x['old'])!=1: bad.append((x['id'],x['old'],t.count(x['old'])))
print(len(L),bad)
